import Verif.Proof.Stream
import Mathlib.Tactic.Ring

namespace CN24.Compress
open CN24 IStream

/-- A compressed tensor that can be stored and is not empty. -/
def CTensor.Fits (c : CTensor) : Prop :=
  c.samples < 2 ^ 64 ∧ c.width < 2 ^ 64 ∧ c.height < 2 ^ 64 ∧ c.maps < 2 ^ 64 ∧
    c.bytes.length < 2 ^ 64 ∧ 0 < c.elements ∧ c.elements < 2 ^ 64 ∧ 0 < c.bytes.length

theorem deserialize_ok {s : IStream} {c : CTensor} {rest : List Byte} (mmap : Bool)
    (hf : c.Fits) (h : s.At (c.serialize ++ rest)) :
    deserialize mmap s = (c, { s with pos := s.pos + c.serialize.length }) ∧
    ({ s with pos := s.pos + c.serialize.length } : IStream).At rest := by
  obtain ⟨f1, f2, f3, f4, f5, f6, f7, f8⟩ := hf
  have hlen : c.serialize.length = 40 + c.bytes.length := by
    unfold CTensor.serialize; rw [if_pos f6]; simp; omega
  have h' := h
  unfold CTensor.serialize at h'
  rw [if_pos f6] at h'
  simp only [List.append_assoc] at h'
  obtain ⟨e1, k1⟩ := h'.readU64 f1
  obtain ⟨e2, k2⟩ := k1.readU64 f2
  obtain ⟨e3, k3⟩ := k2.readU64 f3
  obtain ⟨e4, k4⟩ := k3.readU64 f4
  obtain ⟨e5, k5⟩ := k4.readU64 f5
  obtain ⟨e6, k6⟩ := k5.read rfl
  simp only at e2 e3 e4 e5 e6 k2 k3 k4 k5 k6
  have hpos : s.pos + 8 + 8 + 8 + 8 + 8 + c.bytes.length = s.pos + c.serialize.length := by
    rw [hlen]; omega
  rw [hpos] at k6 e6
  refine ⟨?_, k6⟩
  unfold deserialize
  rw [e1]; simp only []
  rw [e2]; simp only []
  rw [e3]; simp only []
  rw [e4]; simp only []
  rw [e5]; simp only [f8, if_true]
  have hd : (s.bytes.drop (s.pos + 8 + 8 + 8 + 8 + 8)).take c.bytes.length = c.bytes := by
    have := k5.2.2.2
    simp only at this
    rw [this]; simp
  cases mmap with
  | true =>
    simp only [if_true, h.2.1, Bool.false_eq_true, if_false, skip, hd]
    rw [hpos, h.1]
  | false =>
    simp only [Bool.false_eq_true, if_false, e6]

theorem deserialize_fail {s : IStream} (mmap : Bool) (h : s.fail = true) :
    deserialize mmap s = (⟨0, 0, 0, 0, []⟩, s) := by
  unfold deserialize
  rw [readU64_fail h]; simp only [readU64_fail h]
  simp

theorem loadLoop_at_nil {mmap : Bool} {fuel : Nat} {s : IStream} {acc : List CTensor}
    (h : s.At []) : loadLoop mmap (fuel + 1) s acc = some acc := by
  have hl := h.len
  simp at hl
  have hr : s.readU64 = (0, { s with eof := true, fail := true }) := by
    unfold IStream.readU64 IStream.read
    rw [if_pos h.good, h.2.2.2]
    simp [ofLe]
  have hr' := readU64_fail (s := { s with eof := true, fail := true }) rfl
  unfold loadLoop
  rw [if_neg (by simp [h.1])]
  have : deserialize mmap s = (⟨0, 0, 0, 0, []⟩, { s with eof := true, fail := true }) := by
    unfold deserialize
    rw [hr]; simp only [hr']
    simp
  simp only [this]
  simp [CTensor.elements, u64]

theorem loadLoop_records {mmap : Bool} (cs : List CTensor) (hcs : ∀ c ∈ cs, c.Fits) :
    ∀ (fuel : Nat) (s : IStream) (acc : List CTensor),
      cs.length < fuel → s.At (cs.flatMap CTensor.serialize) →
      loadLoop mmap fuel s acc = some (acc ++ cs) := by
  induction cs with
  | nil =>
    intro fuel s acc hf h
    obtain ⟨fuel, rfl⟩ : ∃ k, fuel = k + 1 := ⟨fuel - 1, by simp at hf; omega⟩
    rw [loadLoop_at_nil (by simpa using h)]; simp
  | cons c cs ih =>
    intro fuel s acc hfuel h
    simp only [List.length_cons] at hfuel
    obtain ⟨fuel, rfl⟩ : ∃ k, fuel = k + 1 := ⟨fuel - 1, by omega⟩
    simp only [List.flatMap_cons] at h
    have hf := hcs c (by simp)
    obtain ⟨h1, h2⟩ := deserialize_ok mmap hf h
    have hstep : loadLoop mmap (fuel + 1) s acc =
        loadLoop mmap fuel ({ s with pos := s.pos + c.serialize.length } : IStream).peek
          (acc ++ [c]) := by
      conv => lhs; unfold loadLoop
      rw [if_neg (by simp [h.1])]
      simp only [h1]
      rw [if_neg (by unfold u64; rw [Nat.mod_eq_of_lt hf.2.2.2.2.2.2.1]; have := hf.2.2.2.2.2.1; omega)]
    rw [hstep]
    rcases h2.peek with ⟨hne, hpk⟩ | ⟨he, hpk⟩
    · rw [hpk, ih (fun c hc => hcs c (by simp [hc])) fuel _ _ (by omega) h2]
      simp
    · have hnil : cs = [] := by
        cases cs with
        | nil => rfl
        | cons u us =>
          have h4 := congrArg List.length he
          simp [CTensor.serialize] at h4
      subst hnil
      obtain ⟨fuel, rfl⟩ : ∃ k, fuel = k + 1 := ⟨fuel - 1, by simp at hfuel; omega⟩
      unfold loadLoop
      rw [if_pos hpk]

theorem load_records (mmap : Bool) (cs : List CTensor) (hcs : ∀ c ∈ cs, c.Fits) :
    load mmap (leBytes 8 magic ++ cs.flatMap CTensor.serialize) = .ok cs := by
  generalize hb : leBytes 8 magic ++ cs.flatMap CTensor.serialize = bs
  have hat : ({ bytes := bs } : IStream).At (leBytes 8 magic ++ cs.flatMap CTensor.serialize) :=
    ⟨rfl, rfl, by simp, by simp [hb]⟩
  obtain ⟨h1, h2⟩ := hat.readU64 (by decide)
  have hlen : cs.length ≤ bs.length := by
    rw [← hb]
    simp only [List.length_append, leBytes_length]
    have : ∀ l : List CTensor, l.length ≤ (l.flatMap CTensor.serialize).length := by
      intro l
      induction l with
      | nil => simp
      | cons c l ih =>
        simp only [List.flatMap_cons, List.length_append, List.length_cons]
        have : 1 ≤ c.serialize.length := by simp [CTensor.serialize]; omega
        omega
    have := this cs
    omega
  unfold load
  rw [h1]
  simp only [ne_eq, not_true_eq_false, if_false]
  rw [loadLoop_records cs hcs _ _ _ (by omega) h2]
  simp

/-! ### Compressing and decompressing one tensor -/

/-- The tensors the 32-bit counters of the decoder can cope with: fewer than 2^29 elements. -/
theorem roundtrip (t : Tensor F32) (hw : t.WF) (hp : 0 < t.elements) :
    ∃ c ds, compress t = some c ∧ c.samples = t.samples ∧ c.width = t.width ∧
      c.height = t.height ∧ c.maps = t.maps ∧ c.elements = t.elements ∧
      0 < c.bytes.length ∧ c.bytes.length ≤ 8 * t.elements ∧
      Decodes c.bytes (ds.flatMap datumBytes) ∧ (∀ d ∈ ds, d ∈ t.data) ∧
      List.Forall₂ rel t.data ds := by
  obtain ⟨st, h1, h2, h3, ds, h4, h5, h6⟩ :=
    compressData_spec t.data (2 * t.elements * charsPerDatum + 2)
      (by rw [hw]; unfold charsPerDatum; omega)
  have hne : 0 < st.out.length := by
    rcases Nat.eq_zero_or_pos st.out.length with h | h
    · have h0 : st.out = [] := List.length_eq_zero_iff.1 h
      rw [h0] at h4
      have := h4.decLoop (Nat.le_refl _)
      simp only [decLoop, Res.ok.injEq] at this
      have hl := congrArg List.length this
      rw [flatMap_length, ← forall2_length h6, hw] at hl
      simp at hl; omega
    · exact h
  refine ⟨⟨t.samples, t.width, t.height, t.maps, st.out⟩, ds, ?_, rfl, rfl, rfl, rfl, ?_, hne, ?_, h4, h5, h6⟩
  · unfold compress
    rw [h1]
    simp only [Option.map_some]
    rw [if_neg (by omega), h2, List.take_length]
  · unfold CTensor.elements Tensor.elements; ring
  · have e : t.data.length = t.elements := hw
    rw [← e]; exact h3

theorem decompressData_ok {bytes : List Byte} {ds : List F32} {cap : Nat}
    (hd : Decodes bytes (ds.flatMap datumBytes)) (hl : bytes.length < 2 ^ 32)
    (hs : 4 * ds.length < 2 ^ 32) (hc : ds.length * charsPerDatum ≤ cap) :
    decompressData cap bytes = .ok (ds.length, ds.flatMap datumBytes) := by
  unfold decompressData
  rw [if_neg (by omega), hd.decLoop (by rw [flatMap_length]; unfold charsPerDatum at hc; omega)]
  simp only [flatMap_length, charsPerDatum]
  rw [Nat.mod_eq_of_lt hs, if_neg (by omega)]
  congr 2
  omega

theorem compress_empty (t : Tensor F32) (hw : t.WF) (hp : t.elements = 0) :
    compress t = some ⟨0, 0, 0, 0, []⟩ := by
  have hd : t.data = [] := List.length_eq_zero_iff.1 (by rw [hw, hp])
  unfold compress
  rw [hd, hp]
  rfl

theorem foldl_max_ge (cs : List CTensor) (m : Nat) :
    m ≤ cs.foldl (fun m c => if m < c.elements then c.elements else m) m ∧
    ∀ c ∈ cs, c.elements ≤ cs.foldl (fun m c => if m < c.elements then c.elements else m) m := by
  induction cs generalizing m with
  | nil => simp
  | cons c cs ih =>
    simp only [List.foldl_cons, List.mem_cons]
    obtain ⟨h1, h2⟩ := ih (if m < c.elements then c.elements else m)
    have : m ≤ (if m < c.elements then c.elements else m) ∧
        c.elements ≤ (if m < c.elements then c.elements else m) := by split <;> omega
    refine ⟨by omega, ?_⟩
    rintro d (rfl | hd)
    · omega
    · exact h2 d hd

theorem elements_le_max {cs : List CTensor} {c : CTensor} (h : c ∈ cs) :
    c.elements ≤ maxElements cs := (foldl_max_ge cs 0).2 c h

/-- Splicing a whole sample into a tensor is what `CopySample` does for equal shapes. -/
theorem splice_eq_copySample [Zero F32] (t target : Tensor F32) (ht : t.WF) (htg : target.WF)
    (j : Nat) (hs : t.samples = 1) (hw : t.width = target.width) (hh : t.height = target.height)
    (hm : t.maps = target.maps) (hj : j < target.samples) :
    Tensor.copySample t 0 target j = some (true, { target with
      data := target.data.take (target.offset 0 0 0 j) ++ t.data ++
        target.data.drop (target.offset 0 0 0 j + t.data.length) }) := by
  obtain ⟨u, h1, h2, h3, h4⟩ := Tensor.copySample_ok (i := 0) ht htg hm (by omega) hj (by omega) (by omega)
  rw [h1]
  congr 2
  have ht' : t.data.length = target.maps * target.width * target.height := by
    rw [show t.data.length = t.elements from ht]; unfold Tensor.elements
    rw [hs, hm, hw, hh]; ring
  have htg' : target.data.length = target.samples * (target.maps * target.width * target.height) := by
    rw [show target.data.length = target.elements from htg]; unfold Tensor.elements; ring
  have hoff : target.offset 0 0 0 j = j * (target.maps * target.width * target.height) := by
    unfold Tensor.offset; ring
  generalize hE : target.maps * target.width * target.height = E at *
  have hle : j * E + E ≤ target.samples * E := by
    have : (j + 1) * E ≤ target.samples * E := Nat.mul_le_mul_right E hj
    rw [Nat.succ_mul] at this; omega
  refine Tensor.ext_get h3 ?_ ⟨h2.1.symm, h2.2.1.symm, h2.2.2.1.symm, h2.2.2.2.symm⟩ ?_
  · show List.length _ = _
    have : (target : Tensor F32).elements = target.samples * E := by rw [← htg]; exact htg'
    show List.length _ = target.elements
    rw [this]
    simp only [List.length_append, List.length_take, List.length_drop, hoff, ht', htg']
    omega
  · rintro x y m s hin
    have hin' : target.InRange x y m s := by
      obtain ⟨a, b, c, d⟩ := hin
      exact ⟨by rw [h2.2.1]; exact a, by rw [h2.2.2.1]; exact b, by rw [h2.2.2.2]; exact c,
        by rw [h2.1]; exact d⟩
    rw [h4 x y m s hin']
    have hx : x < t.width := by rw [hw]; exact hin'.1
    have hy : y < t.height := by rw [hh]; exact hin'.2.1
    have hr : m * target.width * target.height + y * target.width + x < E := by
      have := Tensor.offset_lt { target with samples := 1 } (x := x) (y := y) (m := m) (s := 0)
        ⟨hin'.1, hin'.2.1, hin'.2.2.1, by simp⟩
      simp only [Tensor.offset, Tensor.elements, Nat.one_mul, Nat.zero_mul] at this
      rw [← hE]
      omega
    have hoff2 : target.offset x y m s = s * E +
        (m * target.width * target.height + y * target.width + x) := by
      unfold Tensor.offset; rw [← hE]; ring
    have hoff3 : t.offset x y m 0 = m * target.width * target.height + y * target.width + x := by
      unfold Tensor.offset; rw [hw, hh]; ring
    unfold Tensor.get
    rw [show ({ target with
      data := target.data.take (target.offset 0 0 0 j) ++ t.data ++
        target.data.drop (target.offset 0 0 0 j + t.data.length) } : Tensor F32).offset x y m s =
        target.offset x y m s from rfl]
    rw [hoff2, hoff3, hoff, ht']
    generalize m * target.width * target.height + y * target.width + x = r at *
    unfold rd
    simp only []
    rcases Nat.lt_trichotomy s j with h | h | h
    · have : (s + 1) * E ≤ j * E := Nat.mul_le_mul_right E h
      rw [Nat.succ_mul] at this
      rw [if_neg (by omega), List.append_assoc, List.getElem?_append_left (by simp only [List.length_take, htg']; omega),
        List.getElem?_take_of_lt (by omega)]
    · subst h
      rw [if_pos rfl, if_pos ⟨hx, hy⟩, List.append_assoc,
        List.getElem?_append_right (by simp only [List.length_take, htg']; omega),
        List.getElem?_append_left (by simp only [List.length_take, htg', ht']; omega)]
      congr 1
      simp
      omega
    · have : (j + 1) * E ≤ s * E := Nat.mul_le_mul_right E h
      rw [Nat.succ_mul] at this
      rw [if_neg (by omega), List.getElem?_append_right (by simp only [List.length_take, List.length_append, htg', ht']; omega), List.getElem?_drop]
      congr 1
      simp
      omega

end CN24.Compress
