import Verif.Model.PatchLoad
import Verif.Proof.Stream

namespace CN24.PatchLoad
open CN24 CN24.Tensor CN24.IStream

/-- The special case of one file is the model of the stream classes. -/
theorem deserializeFd_own (mmap : Bool) (s : IStream) :
    deserializeFd (if mmap then some s.bytes else none) s = deserialize false mmap s := by
  unfold deserializeFd deserialize
  simp only [and_true, Bool.false_eq_true, if_false]
  split
  · cases mmap with
    | true => simp only [if_true, readU64_bytes]
    | false => simp only [Bool.false_eq_true, if_false]
  · rfl

/-- What a record at position `pos` becomes. -/
def view (fd : Option (List Byte)) (pos : Nat) (t : Tensor F32) : Tensor (Option F32) :=
  ⟨t.samples, t.width, t.height, t.maps, match fd with
    | none => t.data.map some
    | some m => cells t.elements (m.drop (pos + 32))⟩

theorem deserializeFd_ok {s : IStream} {t : Tensor F32} {rest : List Byte} (fd : Option (List Byte)) (hw : t.WF)
    (hp : 0 < t.elements) (hf : t.Fits) (h : s.At (t.serialize ++ rest)) :
    deserializeFd fd s = (view fd s.pos t, { s with pos := s.pos + t.serialize.length }) := by
  match fd with
  | none =>
    have := (deserialize_ok false hw hp hf h).1
    rw [← deserializeFd_own] at this
    exact this
  | some m =>
    have hlen := serialize_length t hw
    have hser : t.serialize = leBytes 8 t.samples ++ leBytes 8 t.width ++ leBytes 8 t.height ++
        leBytes 8 t.maps ++ t.data.flatMap datumBytes := by
      unfold serialize; rw [if_pos hp]
    have h' := h
    rw [hser, List.append_assoc] at h'
    obtain ⟨s1, s2, s3, s4, e1, e2, e3, e4, k4, rfl⟩ := header hf h'
    have hel : u64 (t.samples * t.maps * t.width * t.height) = t.elements := by
      unfold u64; exact Nat.mod_eq_of_lt (by have := hf.2.2.2.2; unfold elements at this; omega)
    have hb : u64 (t.elements * 4) = t.elements * 4 := Nat.mod_eq_of_lt hf.2.2.2.2
    unfold deserializeFd
    rw [e1]; simp only []
    rw [e2]; simp only []
    rw [e3]; simp only []
    rw [e4]; simp only [hel, hb, hp, if_true, h.2.1, Bool.false_eq_true, if_false, skip, view]
    rw [hlen, Nat.add_assoc, h.1]

theorem deserialize_head {s : IStream} {t : Tensor F32} {rest : List Byte} (hw : t.WF)
    (hp : 0 < t.elements) (hf : t.Fits) (h : s.At (t.serialize ++ rest)) :
    (deserialize true false s).1.elements = t.elements ∧
      (deserialize true false s).2 = { s with pos := s.pos + t.serialize.length } := by
  have hlen := serialize_length t hw
  have hser : t.serialize = leBytes 8 t.samples ++ leBytes 8 t.width ++ leBytes 8 t.height ++
      leBytes 8 t.maps ++ t.data.flatMap datumBytes := by
    unfold serialize; rw [if_pos hp]
  have h' := h
  rw [hser, List.append_assoc] at h'
  obtain ⟨s1, s2, s3, s4, e1, e2, e3, e4, k4, rfl⟩ := header hf h'
  have hel : u64 (t.samples * t.maps * t.width * t.height) = t.elements := by
    unfold u64; exact Nat.mod_eq_of_lt (by have := hf.2.2.2.2; unfold elements at this; omega)
  have hb : u64 (t.elements * 4) = t.elements * 4 := Nat.mod_eq_of_lt hf.2.2.2.2
  unfold deserialize
  rw [e1]; simp only []
  rw [e2]; simp only []
  rw [e3]; simp only []
  rw [e4]; simp only [hel, hb]
  have hne : t.elements ≠ 0 := by omega
  simp only [reduceCtorEq, and_false, if_false, if_true, Bool.false_eq_true, hne, or_self, skip, h.2.1]
  refine ⟨?_, ?_⟩
  · rfl
  · rw [hlen, Nat.add_assoc, h.1]

theorem countLoop_stop {fuel n : Nat} {s : IStream} (h : s.eof = true) : countLoop (fuel + 1) s n = some n := by
  unfold countLoop
  rw [if_pos h]

theorem countLoop_nil {fuel n : Nat} {s : IStream} (h : s.At []) : countLoop (fuel + 1) s n = some n := by
  have hl := h.len
  simp at hl
  have hr : s.readU64 = (0, { s with eof := true, fail := true }) := by
    unfold IStream.readU64 IStream.read
    rw [if_pos h.good, h.2.2.2]
    simp [ofLe]
  have hr' := readU64_fail (s := { s with eof := true, fail := true }) rfl
  unfold countLoop
  rw [if_neg (by simp [h.1])]
  have : (deserialize true false s).1 = ⟨0, 0, 0, 0, []⟩ := by
    unfold deserialize
    rw [hr]; simp only [hr']
    simp [u64]
  simp only [this]
  simp [elements]

theorem countLoop_records (ts : List (Tensor F32)) (hts : ∀ t ∈ ts, t.WF ∧ 0 < t.elements ∧ t.Fits) :
    ∀ (fuel : Nat) (s : IStream) (n : Nat), ts.length < fuel → s.At (ts.flatMap serialize) →
      countLoop fuel s n = some (n + ts.length) := by
  induction ts with
  | nil =>
    intro fuel s n hfuel h
    obtain ⟨fuel, rfl⟩ : ∃ k, fuel = k + 1 := ⟨fuel - 1, by simp at hfuel; omega⟩
    exact countLoop_nil h
  | cons t ts ih =>
    intro fuel s n hfuel h
    obtain ⟨hw, hp, hf⟩ := hts t (by simp)
    simp only [List.length_cons] at hfuel
    obtain ⟨fuel, rfl⟩ : ∃ k, fuel = k + 1 := ⟨fuel - 1, by omega⟩
    simp only [List.flatMap_cons] at h
    obtain ⟨h1, h2⟩ := deserialize_head hw hp hf h
    have h3 := (deserialize_ok false hw hp hf h).2
    unfold countLoop
    rw [if_neg (by simp [h.1])]
    simp only [h1, h2]
    rw [if_neg (by omega)]
    rcases h3.peek with ⟨hne, hpk⟩ | ⟨he, hpk⟩
    · rw [hpk, ih (fun t ht => hts t (by simp [ht])) fuel _ (n + 1) (by omega) h3]
      simp only [List.length_cons]
      congr 1
      omega
    · have hnil : ts = [] := by
        cases ts with
        | nil => rfl
        | cons u us =>
          have := serialize_length u (hts u (by simp)).1
          have h4 := congrArg List.length he
          simp [this] at h4
      subst hnil
      obtain ⟨fuel, rfl⟩ : ∃ k, fuel = k + 1 := ⟨fuel - 1, by simp at hfuel; omega⟩
      rw [countLoop_stop hpk]
      rfl

theorem count_records (ts : List (Tensor F32)) (hts : ∀ t ∈ ts, t.WF ∧ 0 < t.elements ∧ t.Fits) :
    count (ts.flatMap serialize) = some ts.length := by
  unfold count
  have hl := records_le_bytes ts (fun t ht => (hts t ht).1)
  rw [countLoop_records ts hts _ _ 0 (by omega) ⟨rfl, rfl, by simp, by simp⟩, Nat.zero_add]

/-- Pairs in the order of the file. -/
def flat {α : Type _} (ps : List (α × α)) : List α := ps.flatMap fun p => [p.1, p.2]

theorem flat_length {α : Type _} (ps : List (α × α)) : (flat ps).length = 2 * ps.length := by
  induction ps with
  | nil => rfl
  | cons p ps ih =>
    show ([p.1, p.2] ++ flat ps).length = _
    rw [List.length_append, ih]
    simp
    omega

/-- What the pairs of a file become, the first record being at position `pos`. -/
def viewPairs (fd : Option (List Byte)) : Nat → List (Tensor F32 × Tensor F32) →
    List (Tensor (Option F32) × Tensor (Option F32))
  | _, [] => []
  | pos, p :: ps => (view fd pos p.1, view fd (pos + p.1.serialize.length) p.2) ::
      viewPairs fd (pos + p.1.serialize.length + p.2.serialize.length) ps

theorem readPairs_records (fd : Option (List Byte)) (ps : List (Tensor F32 × Tensor F32))
    (hps : ∀ t ∈ flat ps, t.WF ∧ 0 < t.elements ∧ t.Fits) :
    ∀ s : IStream, s.At ((flat ps).flatMap serialize) → readPairs fd ps.length s = viewPairs fd s.pos ps := by
  induction ps with
  | nil => intro s _; rfl
  | cons p ps ih =>
    intro s h
    have hflat : (flat (p :: ps)).flatMap serialize =
        p.1.serialize ++ (p.2.serialize ++ (flat ps).flatMap serialize) := rfl
    rw [hflat] at h
    obtain ⟨hw, hp, hf⟩ := hps p.1 (by simp [flat])
    obtain ⟨hw', hp', hf'⟩ := hps p.2 (by simp [flat])
    have e1 := deserializeFd_ok fd hw hp hf h
    have h1 := (deserialize_ok false hw hp hf h).2
    have e2 := deserializeFd_ok fd hw' hp' hf' h1
    have h2 := (deserialize_ok false hw' hp' hf' h1).2
    rw [List.length_cons, readPairs]
    simp only [e1, e2, viewPairs]
    rw [ih (fun t ht => hps t (by rw [show flat (p :: ps) = [p.1, p.2] ++ flat ps from rfl]; simp [ht])) _ h2]

/-- The same shape. -/
def SameShape (t u : Tensor F32) : Prop :=
  t.samples = u.samples ∧ t.width = u.width ∧ t.height = u.height ∧ t.maps = u.maps

theorem SameShape.elements {t u : Tensor F32} (h : SameShape t u) : t.elements = u.elements := by
  unfold Tensor.elements
  rw [h.1, h.2.1, h.2.2.1, h.2.2.2]

/-- A record seen through a file that holds the record `u` of the same shape at the same place. -/
theorem view_map {t u : Tensor F32} (hu : u.WF) (hp : 0 < u.elements) (h : SameShape t u) (m : List Byte) (pos : Nat)
    (rest : List Byte) (hm : m.drop pos = u.serialize ++ rest) : view (some m) pos t = u.known := by
  have hser : u.serialize = (leBytes 8 u.samples ++ leBytes 8 u.width ++ leBytes 8 u.height ++
      leBytes 8 u.maps) ++ u.data.flatMap datumBytes := by
    unfold serialize; rw [if_pos hp]
  have hd : m.drop (pos + 32) = u.data.flatMap datumBytes ++ rest := by
    rw [← List.drop_drop, hm, hser, List.append_assoc, List.drop_append_of_le_length (by simp),
      List.drop_of_length_le (by simp)]
    rfl
  unfold view known
  simp only
  rw [hd, h.elements, show u.elements = u.data.length from hu.symm, cells_flatMap, h.1, h.2.1, h.2.2.1, h.2.2.2]

theorem viewPairs_map (m : List Byte) (ps qs : List (Tensor F32 × Tensor F32))
    (hsh : List.Forall₂ (fun p q => SameShape p.1 q.1 ∧ SameShape p.2 q.2) ps qs)
    (hp : ∀ t ∈ flat ps, t.WF) (hq : ∀ t ∈ flat qs, t.WF ∧ 0 < t.elements) :
    ∀ (pos : Nat) (rest : List Byte), m.drop pos = (flat qs).flatMap serialize ++ rest →
      viewPairs (some m) pos ps = qs.map fun q => (q.1.known, q.2.known) := by
  induction hsh with
  | nil => intro pos rest _; rfl
  | @cons p q ps qs hpq _ ih =>
    intro pos rest hm
    have hflat : (flat (q :: qs)).flatMap serialize ++ rest =
        q.1.serialize ++ (q.2.serialize ++ ((flat qs).flatMap serialize ++ rest)) := by
      show (q.1.serialize ++ (q.2.serialize ++ (flat qs).flatMap serialize)) ++ rest = _
      simp only [List.append_assoc]
    rw [hflat] at hm
    have hq1 := hq q.1 (by simp [flat])
    have hq2 := hq q.2 (by simp [flat])
    have hl1 : p.1.serialize.length = q.1.serialize.length := by
      rw [serialize_length _ (hp p.1 (by simp [flat])), serialize_length _ hq1.1, hpq.1.elements]
    have hl2 : p.2.serialize.length = q.2.serialize.length := by
      rw [serialize_length _ (hp p.2 (by simp [flat])), serialize_length _ hq2.1, hpq.2.elements]
    have hm2 : m.drop (pos + p.1.serialize.length) = q.2.serialize ++ ((flat qs).flatMap serialize ++ rest) := by
      rw [← List.drop_drop, hm, hl1, List.drop_left]
    have hm3 : m.drop (pos + p.1.serialize.length + p.2.serialize.length) = (flat qs).flatMap serialize ++ rest := by
      rw [← List.drop_drop, hm2, hl2, List.drop_left]
    rw [viewPairs, view_map hq1.1 hq1.2 hpq.1 m pos _ hm, view_map hq2.1 hq2.2 hpq.2 m _ _ hm2,
      ih (fun t ht => hp t (by rw [show flat (p :: ps) = [p.1, p.2] ++ flat ps from rfl]; simp [ht]))
        (fun t ht => hq t (by rw [show flat (q :: qs) = [q.1, q.2] ++ flat qs from rfl]; simp [ht])) _ _ hm3]
    rfl

theorem viewPairs_none (ps : List (Tensor F32 × Tensor F32)) (pos : Nat) :
    viewPairs none pos ps = ps.map fun q => (q.1.known, q.2.known) := by
  induction ps generalizing pos with
  | nil => rfl
  | cons p ps ih => rw [viewPairs, ih]; rfl

theorem forall₂_same {ps : List (Tensor F32 × Tensor F32)} :
    List.Forall₂ (fun p q => SameShape p.1 q.1 ∧ SameShape p.2 q.2) ps ps := by
  induction ps with
  | nil => exact .nil
  | cons p ps ih => exact .cons ⟨⟨rfl, rfl, rfl, rfl⟩, ⟨rfl, rfl, rfl, rfl⟩⟩ ih

/-- A file of pairs, through the right descriptor or none. -/
theorem readPairs_own (fd : Option (List Byte)) (ps : List (Tensor F32 × Tensor F32))
    (hps : ∀ t ∈ flat ps, t.WF ∧ 0 < t.elements ∧ t.Fits)
    (hfd : fd = none ∨ fd = some ((flat ps).flatMap serialize)) :
    readPairs fd ps.length { bytes := (flat ps).flatMap serialize } = ps.map fun q => (q.1.known, q.2.known) := by
  rw [readPairs_records fd ps hps _ ⟨rfl, rfl, by simp, by simp⟩]
  rcases hfd with rfl | rfl
  · exact viewPairs_none ps 0
  · exact viewPairs_map _ ps ps forall₂_same (fun t ht => (hps t ht).1) (fun t ht => ⟨(hps t ht).1, (hps t ht).2.1⟩) 0 []
      (by simp)

/-- The head-only reads of the counting loop fail or advance. -/
theorem head_progress (s : IStream) :
    (deserialize true false s).2.bytes = s.bytes ∧
    ((deserialize true false s).2.fail = true ∨
      (s.pos + 32 ≤ (deserialize true false s).2.pos ∧ s.fail = false)) := by
  obtain ⟨v1, s1, e1⟩ : ∃ v t, s.readU64 = (v, t) := ⟨_, _, rfl⟩
  obtain ⟨v2, s2, e2⟩ : ∃ v t, s1.readU64 = (v, t) := ⟨_, _, rfl⟩
  obtain ⟨v3, s3, e3⟩ : ∃ v t, s2.readU64 = (v, t) := ⟨_, _, rfl⟩
  obtain ⟨v4, s4, e4⟩ : ∃ v t, s3.readU64 = (v, t) := ⟨_, _, rfl⟩
  have b1 : s1.bytes = s.bytes := by rw [← readU64_bytes s, e1]
  have b2 : s2.bytes = s1.bytes := by rw [← readU64_bytes s1, e2]
  have b3 : s3.bytes = s2.bytes := by rw [← readU64_bytes s2, e3]
  have b4 : s4.bytes = s3.bytes := by rw [← readU64_bytes s3, e4]
  have hhead : s4.fail = true ∨ (s4.pos = s.pos + 32 ∧ s.fail = false) := by
    by_cases hfail : s4.fail = true
    · exact .inl hfail
    · right
      have f4 := readU64_ok (s := s3) (by rw [e4]; simpa using hfail)
      have f3 := readU64_ok (s := s2) (by rw [e3]; exact f4.1)
      have f2 := readU64_ok (s := s1) (by rw [e2]; exact f3.1)
      have f1 := readU64_ok (s := s) (by rw [e1]; exact f2.1)
      rw [e4] at f4; rw [e3] at f3; rw [e2] at f2; rw [e1] at f1
      have p4 := congrArg IStream.pos f4.2.2
      have p3 := congrArg IStream.pos f3.2.2
      have p2 := congrArg IStream.pos f2.2.2
      have p1 := congrArg IStream.pos f1.2.2
      simp only at p1 p2 p3 p4
      exact ⟨by omega, f1.1⟩
  unfold deserialize
  rw [e1]; simp only []
  rw [e2]; simp only []
  rw [e3]; simp only []
  rw [e4]; simp only [reduceCtorEq, and_false, if_false, if_true, skip_bytes]
  refine ⟨by rw [b4, b3, b2, b1], ?_⟩
  by_cases hf : s4.fail = true
  · exact .inl (skip_fail _ hf)
  · rcases hhead with h | h
    · exact absurd h hf
    · right
      refine ⟨?_, h.2⟩
      simp only [skip, hf, Bool.false_eq_true, if_false]
      omega

theorem countLoop_terminates : ∀ (fuel : Nat) (s : IStream) (n : Nat), s.bytes.length - s.pos + 2 ≤ fuel →
    ∃ k, countLoop fuel s n = some k := by
  intro fuel
  induction fuel with
  | zero => intro s n h; omega
  | succ fuel ih =>
    intro s n h
    unfold countLoop
    split
    · exact ⟨_, rfl⟩
    · simp only
      split
      · exact ⟨_, rfl⟩
      · next he =>
        obtain ⟨hb, hpr⟩ := head_progress s
        generalize hr : (deserialize true false s).2 = r at *
        obtain ⟨fuel, rfl⟩ : ∃ k, fuel = k + 1 := ⟨fuel - 1, by omega⟩
        by_cases hend : r.fail = true ∨ r.bytes.length ≤ r.pos
        · rcases peek_end hend with hp | hp
          · exact ⟨_, countLoop_stop hp⟩
          · unfold countLoop
            split
            · exact ⟨_, rfl⟩
            · simp only
              have hz : (deserialize true false r.peek).1.elements = 0 := by
                unfold deserialize
                rw [readU64_fail hp]; simp only [readU64_fail hp]
                simp [u64, elements]
              rw [if_pos hz]
              exact ⟨_, rfl⟩
        · apply ih
          have : r.peek.pos = r.pos := by
            unfold IStream.peek; split
            · split <;> rfl
            · rfl
          rw [peek_bytes, this, hb]
          have : r.fail = false := by
            cases hrf : r.fail <;> simp_all
          rcases hpr with hpr | hpr
          · simp [this] at hpr
          · have : r.pos < r.bytes.length := by
              by_contra hc; exact hend (.inr (by omega))
            rw [hb] at this
            omega

end CN24.PatchLoad
