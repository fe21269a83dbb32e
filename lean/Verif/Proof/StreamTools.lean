import Verif.Model.StreamTools
import Verif.Proof.CStream
import Verif.Proof.ListStream

namespace CN24.StreamTools
open CN24 CN24.Tensor CN24.Compress CN24.IStream

/-- A stream that has failed has seen the end of its file. -/
def Seen (s : IStream) : Prop := s.fail = true → s.eof = true

theorem seen_read {s : IStream} (n : Nat) (h : Seen s) : Seen (s.read n).2 := by
  unfold IStream.read
  split
  · dsimp only
    split
    · exact fun _ => rfl
    · exact h
  · next hg =>
    intro _
    cases he : s.eof with
    | true => rfl
    | false =>
      cases hf : s.fail with
      | true => exact absurd (h hf) (by rw [he]; decide)
      | false => exact absurd (by simp [good, he, hf]) hg

theorem seen_deserialize {s : IStream} (h : Seen s) : Seen (deserialize false false s).2 := by
  obtain ⟨v1, s1, e1⟩ : ∃ v t, s.readU64 = (v, t) := ⟨_, _, rfl⟩
  obtain ⟨v2, s2, e2⟩ : ∃ v t, s1.readU64 = (v, t) := ⟨_, _, rfl⟩
  obtain ⟨v3, s3, e3⟩ : ∃ v t, s2.readU64 = (v, t) := ⟨_, _, rfl⟩
  obtain ⟨v4, s4, e4⟩ : ∃ v t, s3.readU64 = (v, t) := ⟨_, _, rfl⟩
  have step : ∀ {s t : IStream} {v : Nat}, s.readU64 = (v, t) → Seen s → Seen t := by
    intro s t v e hs
    have : t = (s.read 8).2 := by rw [show t = (s.readU64).2 by rw [e]]; rfl
    rw [this]; exact seen_read 8 hs
  have h4 : Seen s4 := step e4 (step e3 (step e2 (step e1 h)))
  unfold Tensor.deserialize
  rw [e1]; simp only []
  rw [e2]; simp only []
  rw [e3]; simp only []
  rw [e4]; simp only [and_true, Bool.false_eq_true, if_false]
  split
  · exact seen_read _ h4
  · exact h4

/-- The end is seen when a stream has failed or is at the end of its file. -/
theorem peek_seen {s : IStream} (h : Seen s) (he : s.fail = true ∨ s.bytes.length ≤ s.pos) : s.peek.eof = true := by
  unfold IStream.peek
  split
  · next hg =>
    have hf : s.fail = false := by simp [good] at hg; exact hg.2
    rcases he with h' | h'
    · rw [hf] at h'; cases h'
    · rw [if_neg (by omega)]
  · next hg =>
    cases hf : s.fail with
    | true => exact h hf
    | false =>
      cases he : s.eof with
      | true => rfl
      | false => exact absurd (by simp [good, he, hf]) hg

theorem determined_known (t : Tensor F32) : determined t.known = some t := by
  have : (t.data.map some).mapM id = some t.data := by
    induction t.data with
    | nil => rfl
    | cons a l ih => simp [List.mapM_cons, ih]
  unfold determined known
  rw [this]
  rfl

theorem mapM_determined (ts : List (Tensor F32)) : (ts.map known).mapM determined = some ts := by
  induction ts with
  | nil => rfl
  | cons t ts ih => simp [List.mapM_cons, ih, determined_known]

/-- Tensors as the stream files are made for. -/
abbrev Good (t : Tensor F32) : Prop := t.WF ∧ 0 < t.elements ∧ t.Fits

theorem flatMap_serialize_nil {ts : List (Tensor F32)} (hts : ∀ t ∈ ts, Good t) (h : ts.flatMap serialize = []) :
    ts = [] := by
  cases ts with
  | nil => rfl
  | cons u us =>
    have := serialize_length u (hts u (by simp)).1
    have h4 := congrArg List.length h
    simp [this] at h4

/-- Counting complete records in front of something else. -/
theorem countLoop_tail (ts : List (Tensor F32)) (hts : ∀ t ∈ ts, Good t) (tail : List Byte) (htail : tail ≠ []) :
    ∀ (fuel : Nat) (s : IStream) (n : Nat), ts.length ≤ fuel → n + ts.length < 4294967296 →
      s.At (ts.flatMap serialize ++ tail) →
      ∃ s', countLoop fuel s n = countLoop (fuel - ts.length) s' (n + ts.length) ∧ s'.At tail := by
  induction ts with
  | nil => intro fuel s n _ _ h; exact ⟨s, by simp, by simpa using h⟩
  | cons t ts ih =>
    intro fuel s n hfuel hn h
    obtain ⟨hw, hp, hf⟩ := hts t (by simp)
    simp only [List.length_cons] at hfuel hn
    obtain ⟨fuel, rfl⟩ : ∃ k, fuel = k + 1 := ⟨fuel - 1, by omega⟩
    simp only [List.flatMap_cons, List.append_assoc] at h
    obtain ⟨h1, h2⟩ := deserialize_ok false hw hp hf h
    rcases h2.peek with ⟨hne, hpk⟩ | ⟨he, hpk⟩
    · obtain ⟨s', k1, k2⟩ := ih (fun t ht => hts t (by simp [ht])) fuel _ (n + 1) (by omega) (by omega) h2
      refine ⟨s', ?_, k2⟩
      rw [countLoop, if_neg (by simp [h.1]), h1, hpk, Nat.mod_eq_of_lt (by omega), k1, List.length_cons,
        Nat.add_sub_add_right, show n + 1 + ts.length = n + (ts.length + 1) by omega]
    · exact absurd (List.append_eq_nil_iff.1 he).2 htail

/-- Counting the records of a file. -/
theorem countLoop_all (ts : List (Tensor F32)) (hts : ∀ t ∈ ts, Good t) (t : Tensor F32) (ht : Good t) (fuel n : Nat)
    (s : IStream) (hfuel : ts.length + 1 < fuel) (hn : n + ts.length + 1 < 4294967296)
    (h : s.At ((ts ++ [t]).flatMap serialize)) : countLoop fuel s n = some (n + (ts.length + 1)) := by
  have hne : t.serialize ≠ [] := by
    intro h
    have := serialize_length t ht.1
    rw [h, List.length_nil] at this
    omega
  obtain ⟨s', e, h'⟩ := countLoop_tail ts hts t.serialize hne fuel s n (by omega) (by omega)
    (by simpa [List.flatMap_append] using h)
  rw [e]
  obtain ⟨k, hk⟩ : ∃ k, fuel - ts.length = k + 2 := ⟨fuel - ts.length - 2, by omega⟩
  obtain ⟨h1, h2⟩ := deserialize_ok false ht.1 ht.2.1 ht.2.2 (s := s') (rest := []) (by simpa using h')
  have hp : ({ s' with pos := s'.pos + t.serialize.length } : IStream).peek.eof = true := by
    rcases h2.peek with ⟨hne, _⟩ | ⟨_, hpk⟩
    · exact absurd rfl hne
    · exact hpk
  rw [hk, countLoop, if_neg (by simp [h'.1]), h1, countLoop, if_pos hp, Nat.mod_eq_of_lt (by omega)]
  rfl

/-- Counting the records of a file whose last one is cut off. -/
theorem countLoop_cut (ts : List (Tensor F32)) (hts : ∀ t ∈ ts, Good t) (t : Tensor F32) (ht : Good t) (j fuel n : Nat)
    (s : IStream) (hj : 0 < j) (hj' : j < t.serialize.length) (hfuel : ts.length + 1 < fuel)
    (hn : n + ts.length + 1 < 4294967296) (h : s.At (ts.flatMap serialize ++ t.serialize.take j)) :
    countLoop fuel s n = some (n + (ts.length + 1)) := by
  have hne : t.serialize.take j ≠ [] := by
    intro h
    have := congrArg List.length h
    rw [List.length_take, List.length_nil] at this
    omega
  obtain ⟨s', e, h'⟩ := countLoop_tail ts hts _ hne fuel s n (by omega) (by omega) h
  rw [e]
  obtain ⟨k, hk⟩ : ∃ k, fuel - ts.length = k + 2 := ⟨fuel - ts.length - 2, by omega⟩
  have hs : Seen s' := fun hf => by rw [h'.2.1] at hf; cases hf
  have hp : (deserialize false false s').2.peek.eof = true := by
    refine peek_seen (seen_deserialize hs) ?_
    rw [(deserialize_progress s' false).1]
    exact deserialize_cut false ht.1 ht.2.1 ht.2.2 hj' h'
  rw [hk, countLoop, if_neg (by simp [h'.1]), countLoop, if_pos hp, Nat.mod_eq_of_lt (by omega)]
  rfl

/-- Counting terminates for every file. -/
theorem countLoop_terminates : ∀ (fuel : Nat) (s : IStream) (n : Nat), Seen s → s.bytes.length - s.pos + 2 ≤ fuel →
    ∃ m, countLoop fuel s n = some m := by
  intro fuel
  induction fuel with
  | zero => intro s n _ h; omega
  | succ fuel ih =>
    intro s n hs h
    rw [countLoop]
    split
    · exact ⟨_, rfl⟩
    · obtain ⟨hb, hpr⟩ := deserialize_progress s false
      have hsd := seen_deserialize hs
      generalize hr : (deserialize false false s).2 = r at *
      obtain ⟨fuel, rfl⟩ : ∃ k, fuel = k + 1 := ⟨fuel - 1, by omega⟩
      by_cases hend : r.fail = true ∨ r.bytes.length ≤ r.pos
      · rw [countLoop, if_pos (peek_seen hsd hend)]
        exact ⟨_, rfl⟩
      · have hfail : r.fail = false := by cases hrf : r.fail <;> simp_all
        have hp : r.peek = r ∨ r.peek = { r with fail := true } := by
          unfold IStream.peek
          split
          · rw [if_pos (by by_contra hc; exact hend (.inr (by omega)))]; exact .inl rfl
          · exact .inr rfl
        have hpos : r.peek.pos = r.pos ∧ r.peek.bytes = r.bytes := by rcases hp with e | e <;> rw [e] <;> exact ⟨rfl, rfl⟩
        have hseen : Seen r.peek := by
          intro hf
          unfold IStream.peek at hf ⊢
          split
          · next hg =>
            rw [if_pos hg] at hf
            split
            · next hlt => rw [if_pos hlt] at hf; exact hsd hf
            · rfl
          · next hg =>
            show r.eof = true
            cases he : r.eof with
            | true => rfl
            | false => exact absurd (by simp [good, he, hfail]) hg
        apply ih _ _ hseen
        rcases hpr with hpr | hpr
        · rw [hfail] at hpr; cases hpr
        · have : r.pos < r.bytes.length := by
            by_contra hc; exact hend (.inr (by omega))
          rw [hpos.1, hpos.2, hb]
          rw [hb] at this
          omega

theorem readLoop_records (ts : List (Tensor F32)) (hts : ∀ t ∈ ts, Good t) (tail : List Byte) :
    ∀ s : IStream, s.At (ts.flatMap serialize ++ tail) → readLoop ts.length s = ts.map known := by
  induction ts with
  | nil => intro s _; rfl
  | cons t ts ih =>
    intro s h
    obtain ⟨hw, hp, hf⟩ := hts t (by simp)
    simp only [List.flatMap_cons, List.append_assoc] at h
    obtain ⟨h1, h2⟩ := deserialize_ok false hw hp hf h
    rw [List.length_cons, readLoop, h1, ih (fun t ht => hts t (by simp [ht])) _ h2]
    rfl

theorem trimAction_eq (ts : List (Tensor F32)) (hts : ∀ t ∈ ts, Good t) (tail : List Byte) (count keep : Nat)
    (hk : keep ≤ ts.length) :
    trimAction (ts.flatMap serialize ++ tail) count keep =
      if count ≤ keep then .leave else .rewrite ((ts.take keep).flatMap serialize) := by
  unfold trimAction
  by_cases h1 : count < keep
  · rw [if_pos h1, if_pos (by omega)]
  · rw [if_neg h1]
    by_cases h2 : count = keep
    · rw [if_pos h2, if_pos (by omega)]
    · rw [if_neg h2, if_neg (by omega)]
      have hlen : (ts.take keep).length = keep := by rw [List.length_take]; omega
      have e := readLoop_records (ts.take keep) (fun t ht => hts t (List.mem_of_mem_take ht))
        ((ts.drop keep).flatMap serialize ++ tail) { bytes := ts.flatMap serialize ++ tail }
        ⟨rfl, rfl, by simp, by
          rw [List.drop_zero, ← List.append_assoc, ← List.flatMap_append, List.take_append_drop]⟩
      rw [hlen] at e
      rw [e, mapM_determined]

/-- On a failed stream the count goes on forever. -/
theorem countLoop_failed {s : IStream} (h1 : s.fail = true) (h2 : s.eof = false) :
    ∀ (fuel n : Nat), countLoop fuel s n = none := by
  intro fuel
  induction fuel with
  | zero => intro n; rfl
  | succ fuel ih =>
    intro n
    rw [countLoop, if_neg (by simp [h2]), Tensor.deserialize_fail false h1]
    have : s.peek = s := by
      unfold IStream.peek
      rw [if_neg (by simp [good, h1])]
      cases s
      simp_all
    rw [this, ih]

theorem over_known (t : Tensor F32) (old : Tensor (Option F32)) : over t.known old = t.known := by
  unfold over
  split
  · next h =>
    have : List.zipWith (fun n o => n.or o) (t.data.map some) old.data = t.data.map some := by
      have hlen : t.data.length = old.data.length := by simpa [known] using h
      apply List.ext_getElem
      · simp [hlen]
      · intro i h1 h2; simp
    simp [known, this]
  · rfl

/-- Compressing records in front of something else. -/
theorem compressLoop_records (ts : List (Tensor F32)) (hts : ∀ t ∈ ts, Good t)
    (cs : List CTensor) (hcs : List.Forall₂ (fun t c => compress t = some c ∧ ∃ u, decompress c = .ok u ∧
      u.elements = t.elements) ts cs) :
    ∀ (fuel : Nat) (old : Tensor (Option F32)) (s : IStream) (out : List Byte), ts ≠ [] → ts.length < fuel →
      s.At (ts.flatMap serialize) → compressLoop fuel old s out = .done (out ++ cs.flatMap CTensor.serialize) := by
  induction hcs with
  | nil => intro _ _ _ _ h; exact absurd rfl h
  | @cons t c ts cs h1 _ ih =>
    intro fuel old s out _ hfuel h
    obtain ⟨hw, hp, hf⟩ := hts t (by simp)
    simp only [List.length_cons] at hfuel
    obtain ⟨fuel, rfl⟩ : ∃ k, fuel = k + 1 := ⟨fuel - 1, by omega⟩
    simp only [List.flatMap_cons] at h
    obtain ⟨g1, g2⟩ := Tensor.deserialize_ok false hw hp hf h
    obtain ⟨c1, u, c2, c3⟩ := h1
    have e1 : deserializeInto old s = (t.known, { s with pos := s.pos + t.serialize.length }) := by
      unfold deserializeInto; rw [g1, over_known]
    rw [compressLoop, if_neg (by simp [h.1]), e1, determined_known, Outcome.ofOption_some, Outcome.bind_done, c1,
      Outcome.ofOption_some, Outcome.bind_done, c2]
    dsimp only
    rw [if_neg (by rw [c3]; simp)]
    rcases g2.peek with ⟨hne, hpk⟩ | ⟨he, hpk⟩
    · rw [hpk, ih (fun t ht => hts t (by simp [ht])) fuel _ _ _ (by rintro rfl; exact hne rfl) (by omega) g2]
      simp
    · have : ts = [] := flatMap_serialize_nil (fun t ht => hts t (by simp [ht])) he
      subst this
      cases ‹List.Forall₂ _ [] cs›
      obtain ⟨fuel, rfl⟩ : ∃ k, fuel = k + 1 := ⟨fuel - 1, by simp at hfuel; omega⟩
      rw [compressLoop, if_pos hpk]
      simp

/-! ### Converting lists of images -/

open CN24.Image CN24.ListStream CN24.Config

/-- The tensors written so far are those the list stream would copy. -/
def SameTensors (near : ℚ × ℚ × ℚ → ℚ × ℚ × ℚ → ℚ) (fs : Files) (colors : List Nat) (ms : List Meta)
    (ts : List (Tensor ℚ)) : Prop :=
  ms.length = ts.length ∧ ms.length % 2 = 0 ∧
    ∀ k m t, ms[k]? = some m → ts[k]? = some t → tensorAt near fs ⟨[], colors⟩ m k = .done t

theorem sameTensors_append {near : ℚ × ℚ × ℚ → ℚ × ℚ × ℚ → ℚ} {fs : Files} {colors : List Nat} {ms : List Meta}
    {ts : List (Tensor ℚ)} (h : SameTensors near fs colors ms ts) {a b : Meta} {image rgb label : Tensor ℚ}
    (h1 : imageTensor fs a.filename = .done image) (h2 : imageTensor fs b.filename = .done rgb)
    (h3 : makeLabel near false colors rgb = .done label) :
    SameTensors near fs colors (ms ++ [a, b]) (ts ++ [image, label]) := by
  obtain ⟨g1, g2, g3⟩ := h
  refine ⟨by simp [g1], by simp [Nat.add_mod, g2], ?_⟩
  intro k m t hm ht
  by_cases hk : k < ms.length
  · rw [List.getElem?_append_left hk] at hm
    rw [List.getElem?_append_left (by omega)] at ht
    exact g3 k m t hm ht
  · rw [List.getElem?_append_right (by omega)] at hm
    rw [List.getElem?_append_right (by omega)] at ht
    rw [← g1] at ht
    obtain ⟨i, hi⟩ : ∃ i, k = ms.length + i := ⟨k - ms.length, by omega⟩
    subst hi
    rw [Nat.add_sub_cancel_left] at hm ht
    match i with
    | 0 =>
      cases hm
      cases ht
      unfold tensorAt
      rw [h1, Outcome.bind_done, if_neg (by omega)]
    | 1 =>
      cases hm
      cases ht
      unfold tensorAt
      rw [h2, Outcome.bind_done, if_pos (by omega)]
      exact h3
    | i + 2 => simp at hm

/-- What the conversion writes, the list stream knows. -/
theorem makeLoop_list (near : ℚ × ℚ × ℚ → ℚ × ℚ × ℚ → ℚ) (fs : Files) (colors : List Nat) (idir ldir : Str) :
    ∀ (is ls : List Str) (ts ts' : List (Tensor ℚ)) (ms : List Meta) (count : Nat),
      SameTensors near fs colors ms ts → makeLoop near fs false colors idir ldir is ls ts = .done ts' →
      ∃ ms' count', loadLoop fs colors.length idir ldir is ls ms count = .done (ms', count') ∧
        SameTensors near fs colors ms' ts' ∧ count' + ts.length = count + ts'.length := by
  intro is
  induction is with
  | nil =>
    intro ls ts ts' ms count h hm
    rw [makeLoop] at hm
    cases hm
    exact ⟨ms, count, by rw [ListStream.loadLoop], h, rfl⟩
  | cons i is ih =>
    intro ls ts ts' ms count h hm
    rw [makeLoop] at hm
    rw [ListStream.loadLoop]
    split at hm
    · next hs => cases hm; rw [if_pos hs]; exact ⟨ms, count, rfl, h, rfl⟩
    · next hs =>
      rw [if_neg hs]
      cases e1 : imageTensor fs (idir ++ i) with
      | fatal => rw [e1] at hm; cases hm
      | undefined => rw [e1] at hm; cases hm
      | done image =>
        rw [e1, Outcome.bind_done] at hm
        rw [Outcome.bind_done]
        cases e2 : imageTensor fs (ldir ++ ls.headD []) with
        | fatal => rw [e2] at hm; cases hm
        | undefined => rw [e2] at hm; cases hm
        | done rgb =>
          rw [e2, Outcome.bind_done] at hm
          rw [Outcome.bind_done]
          split at hm
          · next hd => rw [if_pos hd]; exact ih _ _ _ _ _ h hm
          · next hd =>
            rw [if_neg hd]
            cases e3 : makeLabel near false colors rgb with
            | fatal => rw [e3] at hm; cases hm
            | undefined => rw [e3] at hm; cases hm
            | done label =>
              rw [e3, Outcome.bind_done] at hm
              obtain ⟨ms', c', k1, k2, k3⟩ := ih ls.tail _ _
                (ms ++ [⟨idir ++ i, image.width, image.height, image.maps, image.samples⟩,
                  ⟨ldir ++ ls.headD [], rgb.width, rgb.height, colors.length, rgb.samples⟩]) (count + 2)
                (sameTensors_append h e1 e2 e3) hm
              refine ⟨ms', c', k1, k2, ?_⟩
              rw [List.length_append] at k3
              simp only [List.length_cons, List.length_nil] at k3
              omega

theorem loadLoop_prefix (fs : Files) (classes : Nat) (idir ldir : Str) :
    ∀ (is ls : List Str) (ms ms' : List Meta) (count count' : Nat),
      loadLoop fs classes idir ldir is ls ms count = .done (ms', count') → ms <+: ms' := by
  intro is
  induction is with
  | nil => intro ls ms ms' count count' h; rw [ListStream.loadLoop] at h; cases h; exact List.prefix_refl _
  | cons i is ih =>
    intro ls ms ms' count count' h
    rw [ListStream.loadLoop] at h
    split at h
    · cases h; exact List.prefix_refl _
    · cases e1 : imageTensor fs (idir ++ i) with
      | fatal => rw [e1] at h; cases h
      | undefined => rw [e1] at h; cases h
      | done image =>
        rw [e1, Outcome.bind_done] at h
        cases e2 : imageTensor fs (ldir ++ ls.headD []) with
        | fatal => rw [e2] at h; cases h
        | undefined => rw [e2] at h; cases h
        | done rgb =>
          rw [e2, Outcome.bind_done] at h
          split at h
          · exact ih _ _ _ _ _ h
          · exact (List.prefix_append _ _).trans (ih _ _ _ _ _ h)

/-- What the list stream can copy, the conversion writes. -/
theorem list_makeLoop (near : ℚ × ℚ × ℚ → ℚ × ℚ × ℚ → ℚ) (fs : Files) (colors : List Nat) (idir ldir : Str) :
    ∀ (is ls : List Str) (ts : List (Tensor ℚ)) (ms ms' : List Meta) (count count' : Nat), ms.length % 2 = 0 →
      loadLoop fs colors.length idir ldir is ls ms count = .done (ms', count') →
      (∀ k m, ms'[k]? = some m → ∃ t, tensorAt near fs ⟨[], colors⟩ m k = .done t) →
      ∃ ts', makeLoop near fs false colors idir ldir is ls ts = .done ts' := by
  intro is
  induction is with
  | nil => intro ls ts ms ms' count count' _ _ _; exact ⟨ts, by rw [makeLoop]⟩
  | cons i is ih =>
    intro ls ts ms ms' count count' hev hm hall
    rw [makeLoop]
    rw [ListStream.loadLoop] at hm
    split at hm
    · next hs => exact ⟨ts, by rw [if_pos hs]⟩
    · next hs =>
      rw [if_neg hs]
      cases e1 : imageTensor fs (idir ++ i) with
      | fatal => rw [e1] at hm; cases hm
      | undefined => rw [e1] at hm; cases hm
      | done image =>
        rw [e1, Outcome.bind_done] at hm
        rw [Outcome.bind_done]
        cases e2 : imageTensor fs (ldir ++ ls.headD []) with
        | fatal => rw [e2] at hm; cases hm
        | undefined => rw [e2] at hm; cases hm
        | done rgb =>
          rw [e2, Outcome.bind_done] at hm
          rw [Outcome.bind_done]
          split at hm
          · next hd => rw [if_pos hd]; exact ih _ _ _ _ _ _ hev hm hall
          · next hd =>
            rw [if_neg hd]
            have hpre := loadLoop_prefix _ _ _ _ _ _ _ _ _ _ hm
            have hget : ms'[ms.length + 1]? =
                some ⟨ldir ++ ls.headD [], rgb.width, rgb.height, colors.length, rgb.samples⟩ := by
              obtain ⟨r, hr⟩ := hpre
              rw [← hr, List.getElem?_append_left (by simp), List.getElem?_append_right (by omega),
                Nat.add_sub_cancel_left]
              rfl
            obtain ⟨label, hlab⟩ := hall _ _ hget
            unfold tensorAt at hlab
            dsimp only at hlab
            rw [e2, Outcome.bind_done, if_pos (by omega)] at hlab
            have : makeLabel near false colors rgb = .done label := hlab
            rw [this, Outcome.bind_done]
            exact ih _ _ _ _ _ _ (by simp [Nat.add_mod, hev]) hm hall

/-- Labels taken directly from the channels. -/
theorem directLabels_spec {rgb : Tensor ℚ} (hw : rgb.WF) (hs : 0 < rgb.samples) (hm : 3 ≤ rgb.maps) :
    ∃ t, directLabels rgb = .done t ∧ Sh (blank rgb 3) t ∧ t.WF ∧
      ∀ x y c, x < rgb.width → y < rgb.height → c < 3 → t.get x y c 0 = rgb.get x y c 0 := by
  have e1 : directLabels rgb = .ofOption (forLoop rgb.height (fun y => forLoop rgb.width fun x => forLoop 3 fun c
      label => label.put x y c 0 (rgb.val x y c 0)) (blank rgb 3)) := by
    refine forO_ofOption (fun y s hy => ?_) _
    refine forO_ofOption (fun x s hx => ?_) _
    refine forO_ofOption (fun c s hc => ?_) _
    rw [get_eq_val hw ⟨hx, hy, by omega, hs⟩]
    rfl
  have e2 : ∃ t, forLoop rgb.height (fun y => forLoop rgb.width fun x => forLoop 3 fun c label =>
      label.put x y c 0 (rgb.val x y c 0)) (blank rgb 3) = some t ∧
      Upd (blank rgb 3) t (fun x y c s => if s = 0 then some (rgb.val x y c 0) else none) := by
    refine upd_loop (blank_wf _ _) (fun y x' y' c s =>
      if y' = y ∧ s = 0 then some (rgb.val x' y c 0) else none) _ ?_ ?_ ?_
    · intro y u hy hsh hu
      refine upd_loop hu (fun x x' y' c s =>
        if x' = x ∧ y' = y ∧ s = 0 then some (rgb.val x y c 0) else none) _ ?_ ?_ ?_
      · intro x v hx hsh' hv
        refine upd_loop hv (fun c x' y' c' s =>
          if x' = x ∧ y' = y ∧ c' = c ∧ s = 0 then some (rgb.val x y c 0) else none) _ ?_ ?_ ?_
        · intro c w hc hsh'' hw'
          obtain ⟨q1, q2, q3, q4⟩ := (hsh.trans hsh').trans hsh''
          exact upd_put hw' ⟨q2 ▸ hx, q3 ▸ hy, q4 ▸ hc, by rw [← q1]; exact Nat.one_pos⟩ _
        · intro c x' y' c' s z hc hin h
          split at h
          · next hcc => obtain ⟨a, b, rfl, d⟩ := hcc; rw [if_pos ⟨a, b, d⟩]; exact h
          · cases h
        · intro x' y' c' s z hin h
          split at h
          · next hcc =>
            obtain ⟨a, b, d⟩ := hcc
            refine ⟨c', ?_, by rw [if_pos ⟨a, b, rfl, d⟩]; exact h⟩
            exact ((hsh.trans hsh').inRange.1 hin).2.2.1
          · cases h
      · intro x x' y' c s v hx hin h
        split at h
        · next hc => obtain ⟨rfl, a, b⟩ := hc; rw [if_pos ⟨a, b⟩]; exact h
        · cases h
      · intro x' y' c s v hin h
        split at h
        · next hc =>
          obtain ⟨a, b⟩ := hc
          exact ⟨x', (hsh.inRange.1 hin).1, by rw [if_pos ⟨rfl, a, b⟩]; exact h⟩
        · cases h
    · intro y x' y' c s v hy hin h
      split at h
      · next hc => obtain ⟨rfl, b⟩ := hc; rw [if_pos b]; exact h
      · cases h
    · intro x' y' c s v hin h
      split at h
      · next hc => exact ⟨y', hin.2.1, by rw [if_pos ⟨rfl, hc⟩]; exact h⟩
      · cases h
  obtain ⟨t, e2, hu⟩ := e2
  refine ⟨t, by rw [e1, e2]; rfl, hu.sh, hu.wf, ?_⟩
  intro x y c hx hy hc
  have hin : (blank rgb 3).InRange x y c 0 := ⟨hx, hy, hc, Nat.one_pos⟩
  rw [hu.hit hin (if_pos rfl), get_eq_val hw ⟨hx, hy, by omega, hs⟩]

/-- A loop that cannot throw is undefined if one of its iterations is. -/
theorem forO_bad {α : Type _} {n k : Nat} {f : Nat → α → Outcome α} (hk : k < n) (hf : ∀ i s, f i s ≠ .fatal)
    (h : ∀ s, f k s = .undefined) (s : α) : forO n f s = .undefined := by
  have hnf : ∀ m, forO m f s ≠ .fatal := by
    intro m
    induction m with
    | zero => intro h; cases h
    | succ m ih =>
      rw [forO]
      cases e : forO m f s with
      | fatal => exact absurd e ih
      | undefined => intro h; cases h
      | done a => rw [Outcome.bind_done]; exact hf m a
  induction n with
  | zero => omega
  | succ n ih =>
    rw [forO]
    by_cases hn : k < n
    · rw [ih hn]; rfl
    · have : n = k := by omega
      subst this
      cases e : forO n f s with
      | fatal => exact absurd e (hnf n)
      | undefined => rfl
      | done a => rw [Outcome.bind_done]; exact h a

theorem forO_no_fatal {α : Type _} {n : Nat} {f : Nat → α → Outcome α} (hf : ∀ i s, f i s ≠ .fatal) (s : α) :
    forO n f s ≠ .fatal := by
  induction n with
  | zero => intro h; cases h
  | succ m ih =>
    rw [forO]
    cases e : forO m f s with
    | fatal => exact absurd e ih
    | undefined => intro h; cases h
    | done a => rw [Outcome.bind_done]; exact hf m a

/-- Labels taken directly from the channels of an image with fewer channels. -/
theorem directLabels_bad {rgb : Tensor ℚ} (hw : rgb.WF) (hs : rgb.samples = 1) (hm : rgb.maps < 3)
    (hx : 0 < rgb.width) (hy : 0 < rgb.height) : directLabels rgb = .undefined := by
  have hget : ∀ c, rgb.maps ≤ c → rgb.get 0 0 c 0 = none := by
    intro c hc
    unfold Tensor.get rd
    refine List.getElem?_eq_none ?_
    rw [hw]
    unfold Tensor.elements Tensor.offset
    rw [hs]
    have := Nat.mul_le_mul_right rgb.height (Nat.mul_le_mul_right rgb.width hc)
    simp only [Nat.one_mul, Nat.zero_mul, Nat.zero_add, Nat.add_zero]
    exact this
  have h1 : ∀ x y c (l : Tensor ℚ), ((Outcome.ofOption (rgb.get x y c 0)).bind fun v =>
      Outcome.ofOption (Tensor.put l x y c 0 v)) ≠ .fatal := by
    intro x y c l
    cases rgb.get x y c 0 with
    | none => intro h; cases h
    | some v =>
      show Outcome.ofOption (Tensor.put l x y c 0 v) ≠ .fatal
      cases Tensor.put l x y c 0 v <;> intro h <;> cases h
  unfold directLabels
  refine forO_bad hy (fun y => forO_no_fatal fun x => forO_no_fatal (h1 x y)) (fun _ => ?_) _
  refine forO_bad hx (fun x => forO_no_fatal (h1 x 0)) (fun _ => ?_) _
  refine forO_bad hm (h1 0 0) (fun _ => ?_) _
  rw [hget _ (Nat.le_refl _)]
  rfl

end CN24.StreamTools
