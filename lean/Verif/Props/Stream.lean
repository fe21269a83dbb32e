import Verif.Proof.CStream

/-
Property theorems about files: C02, C03 (uncompressed), C04, C05, C06 (compression),
C07 (compressed files).
-/

namespace CN24.Props
open CN24 CN24.Tensor CN24.Compress

/-! ## C02 -/

/-- C02: deserializing what was serialized, with any bytes `pre` before and `rest` after it,
gives the same dimensions and bits, and the read position is exactly behind the record.  Both
ways of reading (`mmap` or not) are covered. -/
theorem C02_serialize_roundtrip (t : Tensor F32) (hw : t.WF) (hp : 0 < t.elements) (hf : t.Fits)
    (mmap : Bool) (pre rest : List Byte) :
    deserialize false mmap { bytes := pre ++ t.serialize ++ rest, pos := pre.length } =
      (⟨t.samples, t.width, t.height, t.maps, t.data.map some⟩,
       { bytes := pre ++ t.serialize ++ rest, pos := pre.length + t.serialize.length }) := by
  have h : ({ bytes := pre ++ t.serialize ++ rest, pos := pre.length } : IStream).At
      (t.serialize ++ rest) := ⟨rfl, rfl, by simp, by simp⟩
  exact (deserialize_ok mmap hw hp hf h).1

/-- C02: a tensor without elements comes back as the empty tensor, header consumed. -/
theorem C02_serialize_empty (t : Tensor F32) (hp : t.elements = 0) (hf : t.Fits)
    (mmap : Bool) (pre rest : List Byte) :
    deserialize false mmap { bytes := pre ++ t.serialize ++ rest, pos := pre.length } =
      (⟨0, 0, 0, 0, []⟩,
       { bytes := pre ++ t.serialize ++ rest, pos := pre.length + t.serialize.length }) := by
  have h : ({ bytes := pre ++ t.serialize ++ rest, pos := pre.length } : IStream).At
      (t.serialize ++ rest) := ⟨rfl, rfl, by simp, by simp⟩
  exact deserialize_empty mmap hp hf h

/-- C02: two different tensors never have the same serialized form. -/
theorem C02_serialize_injective (t u : Tensor F32) (ht : t.WF) (hu : u.WF) (pt : 0 < t.elements)
    (pu : 0 < u.elements) (ft : t.Fits) (fu : u.Fits) (h : t.serialize = u.serialize) : t = u := by
  have h1 := C02_serialize_roundtrip t ht pt ft false [] []
  have h2 := C02_serialize_roundtrip u hu pu fu false [] []
  rw [h] at h1
  rw [h1] at h2
  simp only [Prod.mk.injEq, Tensor.mk.injEq, and_true] at h2
  obtain ⟨a, b, c, d, e⟩ := h2
  have e := (List.map_inj_right (f := @some F32) (by simp)).1 e
  cases t; cases u; simp_all

/-- A 1x2 picture with one map, holding 1.0 and a NaN. -/
def smallTensor : Tensor F32 := ⟨1, 2, 1, 1, [0x3F800000#32, 0x7FC00001#32]⟩
example : smallTensor.WF ∧ 0 < smallTensor.elements ∧ smallTensor.Fits := by decide
example : smallTensor.serialize.length = 40 := by decide

/-! ## C03 -/

/-- C03: a file made of serialized tensors is loaded as exactly these tensors. -/
theorem C03_load_file (mmap : Bool) (ts : List (Tensor F32))
    (hts : ∀ t ∈ ts, t.WF ∧ 0 < t.elements ∧ t.Fits) :
    floatLoad mmap (ts.flatMap serialize) =
      some (ts.map fun t => ⟨t.samples, t.width, t.height, t.maps, t.data.map some⟩) :=
  floatLoad_records mmap ts hts

/-- C03: loading terminates on any file contents. -/
theorem C03_load_terminates (mmap : Bool) (bytes : List Byte) :
    ∃ ts, floatLoad mmap bytes = some ts :=
  floatLoop_terminates _ _ _ (by simp)

theorem cut_decompose {l : List (Tensor F32)} (c : Nat) :
    ∃ k, ((l.take k).flatMap serialize).length ≤ c ∧ k ≤ l.length ∧
      (k = l.length ∨ c < ((l.take (k + 1)).flatMap serialize).length) := by
  induction l generalizing c with
  | nil => exact ⟨0, by simp, by simp, .inl rfl⟩
  | cons t l ih =>
    by_cases h : t.serialize.length ≤ c
    · obtain ⟨k, h1, h2, h3⟩ := ih (c - t.serialize.length)
      refine ⟨k + 1, by simp only [List.take_succ_cons, List.flatMap_cons, List.length_append]; omega,
        by simpa using h2, ?_⟩
      rcases h3 with h3 | h3
      · left; simpa using h3
      · right
        simp only [List.take_succ_cons, List.flatMap_cons, List.length_append] at *
        omega
    · refine ⟨0, by simp, by simp, .inr ?_⟩
      simp only [List.take_succ_cons, List.take_zero, List.flatMap_cons, List.flatMap_nil,
        List.length_append, List.length_nil]
      omega

/-- C03: a file cut after any number `c` of bytes still delivers every tensor whose record is
complete (the first `k`), in order and bit-identical, followed by at most one more entry. -/
theorem C03_load_truncated (mmap : Bool) (ts : List (Tensor F32))
    (hts : ∀ t ∈ ts, t.WF ∧ 0 < t.elements ∧ t.Fits) (c : Nat) :
    ∃ k extra, ((ts.take k).flatMap serialize).length ≤ c ∧
      (k = ts.length ∨ c < ((ts.take (k + 1)).flatMap serialize).length) ∧
      extra.length ≤ 1 ∧
      floatLoad mmap ((ts.flatMap serialize).take c) =
        some ((ts.take k).map (fun t => ⟨t.samples, t.width, t.height, t.maps, t.data.map some⟩)
          ++ extra) := by
  obtain ⟨k, h1, h2, h3⟩ := cut_decompose (l := ts) c
  by_cases hk : k = ts.length
  · refine ⟨k, [], h1, h3, by simp, ?_⟩
    subst hk
    rw [List.take_length] at h1
    rw [List.take_of_length_le h1, C03_load_file mmap ts hts]
    simp
  · have hk' : k < ts.length := by omega
    have h3' : c < ((ts.take (k + 1)).flatMap serialize).length := by
      rcases h3 with h3 | h3; exact absurd h3 hk; exact h3
    have hsplit : ts.flatMap serialize = (ts.take k).flatMap serialize ++
        (ts[k].serialize ++ (ts.drop (k + 1)).flatMap serialize) := by
      conv => lhs; rw [← List.take_append_drop k ts, List.drop_eq_getElem_cons hk']
      simp only [List.flatMap_append, List.flatMap_cons]
    rw [List.take_succ_eq_append_getElem hk'] at h3'
    simp only [List.flatMap_append, List.flatMap_cons, List.flatMap_nil, List.append_nil,
      List.length_append] at h3'
    obtain ⟨extra, he, hl⟩ := floatLoad_cut mmap (ts.take k)
      (fun t ht => hts t (List.mem_of_mem_take ht)) ts[k] (hts _ (List.getElem_mem hk'))
      (c - ((ts.take k).flatMap serialize).length) (by omega)
    refine ⟨k, extra, h1, h3, he, ?_⟩
    rw [hsplit, List.take_append, List.take_of_length_le h1,
      List.take_append_of_le_length (by omega)]
    exact hl

/-- Non-vacuity: a file with two tensors, cut in the data of the second one. -/
example : (floatLoad true (([smallTensor, smallTensor].flatMap serialize).take 76)).map
    (fun l => l.map (fun t => t.data)) =
    some [[some 0x3F800000#32, some 0x7FC00001#32], [some 0x3F800000#32, none]] := by decide

/-! ## C05 -/

/-- C05: compression never writes beyond the buffer that `Compress` allocates (the result is
never undefined), and the length it reports is the number of bytes written. -/
theorem C05_compress_in_bounds (t : Tensor F32) (hw : t.WF) :
    ∃ st, compressData (2 * t.elements * 4 + 2) t.data = some st ∧
      st.bytesOut = st.out.length ∧ st.out.length ≤ 2 * t.elements * 4 + 2 := by
  obtain ⟨st, h1, h2, h3, _⟩ := compressData_spec t.data (2 * t.elements * 4 + 2)
    (by rw [hw]; omega)
  refine ⟨st, h1, h2, ?_⟩
  rw [show t.data.length = t.elements from hw] at h3
  omega

/-- C05: the buffer `Compress` allocates is large enough for every tensor, including those whose
bytes all need an escape. -/
theorem C05_compress_never_overruns (t : Tensor F32) (hw : t.WF) : ∃ c, compress t = some c := by
  obtain ⟨st, h, _⟩ := C05_compress_in_bounds t hw
  unfold compress
  rw [show charsPerDatum = 4 from rfl, h]
  exact ⟨_, rfl⟩

/-- Non-vacuity: every byte of these values needs an escape, so 8 bytes per value are needed. -/
example : (compressData 18 [0x58585858#32, 0x58585859#32]).map (·.bytesOut) = some 15 := by decide
example : (compressData 14 [0x58585858#32, 0x58585859#32]).map (·.bytesOut) = none := by decide

/-! ## C04 -/

/-- The same bits, or equal under the C++ comparison of floats. -/
def SameValue (a b : F32) : Prop := a = b ∨ feq a b = true

/-- C04 for tensors of fewer than 2^29 elements: the round trip succeeds, keeps the shape and
yields the same values.  Missing for the full property: larger tensors, for which it is false
(`C04_large_tensor_lost`). -/
theorem C04_roundtrip_partial (t : Tensor F32) (hv : t.Valid) (hs : t.elements < 2 ^ 29) :
    ∃ c u, compress t = some c ∧ decompress c = .ok u ∧ u.samples = t.samples ∧
      u.width = t.width ∧ u.height = t.height ∧ u.maps = t.maps ∧
      List.Forall₂ SameValue t.data u.data := by
  by_cases hp : t.elements = 0
  · obtain ⟨a, b, c, d⟩ := hv.2 hp
    have hd : t.data = [] := List.length_eq_zero_iff.1 (by rw [hv.1, hp])
    exact ⟨_, ⟨0, 0, 0, 0, []⟩, compress_empty t hv.1 hp, by decide, a.symm, b.symm, c.symm, d.symm,
      by rw [hd]; exact .nil⟩
  · obtain ⟨c, ds, h1, h2, h3, h4, h5, h6, h7, h8, h9, h10, h11⟩ := roundtrip t hv.1 (by omega)
    have hlen : ds.length = t.elements := by rw [← forall2_length h11]; exact hv.1
    have hdec := decompressData_ok (cap := c.elements * charsPerDatum) h9 (by omega)
      (by rw [hlen]; omega) (by rw [hlen, h6])
    refine ⟨c, ⟨c.samples, c.width, c.height, c.maps, ds⟩, h1, ?_, h2, h3, h4, h5, h11⟩
    unfold decompress
    rw [hdec]
    simp only []
    rw [if_neg (by omega), if_neg (by omega), datums_flatMap]

/-- C04: bit-identical whenever all zeros of the tensor have the same sign. -/
theorem C04_roundtrip_bits_partial (t : Tensor F32) (hv : t.Valid) (hs : t.elements < 2 ^ 29)
    (hz : ∀ a ∈ t.data, ∀ b ∈ t.data, isZero a = true → isZero b = true → a = b) :
    ∃ c, compress t = some c ∧ decompress c = .ok t := by
  by_cases hp : t.elements = 0
  · obtain ⟨a, b, c, d⟩ := hv.2 hp
    have hd : t.data = [] := List.length_eq_zero_iff.1 (by rw [hv.1, hp])
    refine ⟨_, compress_empty t hv.1 hp, ?_⟩
    have : t = ⟨0, 0, 0, 0, []⟩ := by cases t; simp_all
    rw [this]; decide
  · obtain ⟨c, ds, h1, h2, h3, h4, h5, h6, h7, h8, h9, h10, h11⟩ := roundtrip t hv.1 (by omega)
    have hlen : ds.length = t.elements := by rw [← forall2_length h11]; exact hv.1
    have hdec := decompressData_ok (cap := c.elements * charsPerDatum) h9 (by omega)
      (by rw [hlen]; omega) (by rw [hlen, h6])
    have heq : t.data = ds := by
      have key : ∀ l m : List F32, (∀ a ∈ l, a ∈ t.data) → (∀ a ∈ m, a ∈ t.data) →
          List.Forall₂ rel l m → l = m := by
        intro l m hl hm h
        induction h with
        | nil => rfl
        | @cons a b l m hab _ ih =>
          rw [ih (fun x hx => hl x (by simp [hx])) (fun x hx => hm x (by simp [hx]))]
          congr 1
          rcases hab with hab | hab
          · exact hab
          · rcases feq_eq hab with h | h
            · exact h
            · exact hz a (hl a (by simp)) b (hm b (by simp)) h.1 h.2
      exact key _ _ (fun a h => h) h10 h11
    refine ⟨c, h1, ?_⟩
    unfold decompress
    rw [hdec]
    simp only []
    rw [if_neg (by omega), if_neg (by omega), datums_flatMap, h2, h3, h4, h5, ← heq]

/-- C04 fails for tensors of 2^30 elements and more: the byte count of the decoder is a 32-bit
variable, so decompression never succeeds. -/
theorem C04_large_tensor_lost (t : Tensor F32) (hw : t.WF) (hl : 2 ^ 30 ≤ t.elements) :
    ∃ c, compress t = some c ∧ ∀ u, decompress c ≠ .ok u := by
  obtain ⟨c, ds, h1, h2, h3, h4, h5, h6, h7, h8, h9, h10, h11⟩ := roundtrip t hw (by omega)
  have hlen : ds.length = t.elements := by rw [← forall2_length h11]; exact hw
  refine ⟨c, h1, ?_⟩
  intro u
  unfold decompress decompressData
  by_cases hb : 2 ^ 32 ≤ c.bytes.length
  · rw [if_pos hb]; simp
  · rw [if_neg hb, h9.decLoop (by rw [flatMap_length, hlen, h6]; unfold charsPerDatum; omega)]
    simp only [flatMap_length, charsPerDatum, hlen]
    rw [if_neg (by omega)]
    simp only []
    rw [if_pos (by omega)]
    simp

example (n : Nat) (h : 2 ^ 30 ≤ n) : (⟨1, n, 1, 1, List.replicate n 0⟩ : Tensor F32).WF ∧
    2 ^ 30 ≤ (⟨1, n, 1, 1, List.replicate n 0⟩ : Tensor F32).elements := by
  constructor
  · simp [WF, elements]
  · simpa [elements] using h

/-- Non-vacuity: NaN, both zeros, a run and an escaped byte. -/
def mixedTensor : Tensor F32 :=
  ⟨1, 7, 1, 1, [0#32, 0x80000000#32, 0x7FC00000#32, 0x7FC00000#32, 0x3F800058#32, 1#32, 1#32]⟩
example : mixedTensor.Valid ∧ mixedTensor.elements < 2 ^ 29 := by decide
/-- Here the sign of the first zero is lost: `bits` above needs its hypothesis. -/
example : (compress mixedTensor).map (fun c => decompress c) =
    some (.ok { mixedTensor with data := [0x80000000#32, 0x80000000#32, 0x7FC00000#32,
      0x7FC00000#32, 0x3F800058#32, 1#32, 1#32] }) := by decide +kernel

/-! ## C06 -/

/-- C06 is false: a record whose single byte is the marker makes the decoder read behind it. -/
theorem C06_reads_past_input : decompress ⟨1, 1, 1, 1, [88#8]⟩ = .ub := by decide

/-- C06 is false: a record that announces one element but holds five plain bytes makes the
decoder write behind the output buffer. -/
theorem C06_writes_past_output : decompress ⟨1, 1, 1, 1, [1#8, 2#8, 3#8, 4#8, 5#8]⟩ = .ub := by
  decide

/-- The grammar of well-formed compressed data. -/
inductive Token where
  /-- any byte but the marker -/
  | plain (b : Byte) (h : b ≠ marker)
  /-- marker twice -/
  | escaped
  /-- marker, `Y`, length, four bytes -/
  | run (n x0 x1 x2 x3 : Byte)

/-- Its bytes. -/
def Token.bytes : Token → List Byte
  | .plain b _ => [b]
  | .escaped => [88#8, 88#8]
  | .run n x0 x1 x2 x3 => [88#8, 89#8, n, x0, x1, x2, x3]

/-- What it stands for. -/
def Token.expand : Token → List Byte
  | .plain b _ => [b]
  | .escaped => [88#8]
  | .run n x0 x1 x2 x3 => (List.replicate n.toNat [x0, x1, x2, x3]).flatten

theorem decLoop_tokens (cap : Nat) (ks : List Token) (acc : List Byte) (ha : acc.length ≤ cap) :
    decLoop cap (ks.flatMap Token.bytes) acc =
      if acc.length + (ks.flatMap Token.expand).length ≤ cap
      then .ok (acc ++ ks.flatMap Token.expand) else .ub := by
  induction ks generalizing acc with
  | nil => simp [decLoop, ha]
  | cons k ks ih =>
    simp only [List.flatMap_cons, List.length_append]
    have hrec : ∀ out, out = acc ++ k.expand → acc.length + k.expand.length ≤ cap →
        decLoop cap (ks.flatMap Token.bytes) out =
          if acc.length + (k.expand.length + (ks.flatMap Token.expand).length) ≤ cap
          then .ok (acc ++ (k.expand ++ ks.flatMap Token.expand)) else .ub := by
      rintro out rfl hc
      rw [ih _ (by simpa using hc)]
      simp only [List.length_append, Nat.add_assoc, List.append_assoc]
    have hub : ¬ (acc.length + k.expand.length ≤ cap) → (Res.ub : Res (List Byte)) =
        if acc.length + (k.expand.length + (ks.flatMap Token.expand).length) ≤ cap
          then .ok (acc ++ (k.expand ++ ks.flatMap Token.expand)) else .ub := by
      intro hc
      rw [if_neg (by omega)]
    cases k with
    | plain b h =>
      have hl : (Token.plain b h).expand.length = 1 := rfl
      simp only [Token.bytes, List.cons_append, List.nil_append]
      rw [decLoop.eq_def]
      simp only [h, if_false]
      by_cases hc : acc.length < cap
      · rw [if_pos hc]; exact hrec _ rfl (by omega)
      · rw [if_neg hc]; exact hub (by omega)
    | escaped =>
      have hl : Token.escaped.expand.length = 1 := rfl
      simp only [Token.bytes, List.cons_append, List.nil_append]
      rw [decLoop.eq_def]
      simp only [show (88#8 : Byte) = marker from rfl, if_true]
      by_cases hc : acc.length < cap
      · rw [if_pos hc]; exact hrec _ rfl (by omega)
      · rw [if_neg hc]; exact hub (by omega)
    | run n x0 x1 x2 x3 =>
      have hl : (Token.run n x0 x1 x2 x3).expand.length = n.toNat * 4 := by simp [Token.expand]
      simp only [Token.bytes, List.cons_append, List.nil_append]
      rw [decLoop.eq_def]
      simp only [show (88#8 : Byte) = marker from rfl, if_true, if_false,
        show (89#8 : Byte) = rle from rfl, show ¬ (rle = marker) from by decide]
      by_cases hc : acc.length + n.toNat * 4 ≤ cap
      · rw [if_pos hc]; exact hrec _ rfl (by omega)
      · rw [if_neg hc]; exact hub (by omega)

/-- C06 for well-formed records whose expansion fits the announced size: no access outside the
buffers; the result has the announced number of elements, or is an error.  Missing for the
full property: records that are not well formed or expand to more than announced
(`C06_reads_past_input`, `C06_writes_past_output`, `C06_overlong_record_overruns`). -/
theorem C06_wellformed_safe_partial (ks : List Token) (samples width height maps : Nat)
    (hb : (ks.flatMap Token.bytes).length < 2 ^ 32)
    (hfit : (ks.flatMap Token.expand).length ≤ samples * width * height * maps * 4) :
    (∃ u, decompress ⟨samples, width, height, maps, ks.flatMap Token.bytes⟩ = .ok u ∧
        u.elements = samples * width * height * maps) ∨
      decompress ⟨samples, width, height, maps, ks.flatMap Token.bytes⟩ = .fatal := by
  unfold decompress decompressData
  rw [if_neg (Nat.not_le.2 hb), decLoop_tokens _ _ _ (by simp)]
  have hfit' : ([] : List Byte).length + (ks.flatMap Token.expand).length ≤
      (CTensor.mk samples width height maps (ks.flatMap Token.bytes)).elements * charsPerDatum := by
    rw [List.length_nil, Nat.zero_add]; exact hfit
  rw [if_pos hfit']
  simp only [List.nil_append]
  by_cases h1 : (ks.flatMap Token.expand).length % 2 ^ 32 % charsPerDatum ≠ 0
  · rw [if_pos h1]; exact .inr rfl
  · rw [if_neg h1]
    simp only []
    split
    · exact .inr rfl
    split
    · rename_i h0
      exact .inl ⟨_, rfl, by simpa [elements, CTensor.elements] using h0.symm⟩
    · exact .inl ⟨_, rfl, by unfold elements; ring⟩

/-- Every well-formed record that expands to more than it announces overruns the output. -/
theorem C06_overlong_record_overruns (ks : List Token) (samples width height maps : Nat)
    (hfit : samples * width * height * maps * 4 < (ks.flatMap Token.expand).length) :
    decompress ⟨samples, width, height, maps, ks.flatMap Token.bytes⟩ = .ub := by
  unfold decompress decompressData
  split
  · rename_i h
    split at h
    · simp at h
    · rw [decLoop_tokens _ _ _ (by simp)] at h
      rw [if_neg (by simp only [CTensor.elements, charsPerDatum, List.length_nil]; omega)] at h
      simp at h
  · rename_i h
    split at h
    · simp at h
    · rw [decLoop_tokens _ _ _ (by simp)] at h
      rw [if_neg (by simp only [CTensor.elements, charsPerDatum, List.length_nil]; omega)] at h
      simp at h
  · rfl

/-! ## C07 -/

/-- What the tools may write: single-sample tensors with elements. -/
def Storable (t : Tensor F32) : Prop :=
  t.WF ∧ t.samples = 1 ∧ 0 < t.elements ∧ t.elements < 2 ^ 29

theorem storable_compress {t : Tensor F32} (h : Storable t) :
    ∃ c ds, compress t = some c ∧ c.Fits ∧ c.samples = t.samples ∧ c.width = t.width ∧
      c.height = t.height ∧ c.maps = t.maps ∧ c.elements = t.elements ∧ ds.length = t.elements ∧
      c.bytes.length < 2 ^ 32 ∧
      Decodes c.bytes (ds.flatMap datumBytes) ∧ List.Forall₂ rel t.data ds := by
  obtain ⟨hw, h1, hp, hl⟩ := h
  obtain ⟨c, ds, k1, k2, k3, k4, k5, k6, k7, k8, k9, k10, k11⟩ := roundtrip t hw hp
  have hlen : ds.length = t.elements := by rw [← forall2_length k11]; exact hw
  refine ⟨c, ds, k1, ?_, k2, k3, k4, k5, k6, hlen, by omega, k9, k11⟩
  have hm : 0 < t.maps := by
    rcases Nat.eq_zero_or_pos t.maps with h | h
    · simp [elements, h] at hp
    · exact h
  have hwd : 0 < t.width := by
    rcases Nat.eq_zero_or_pos t.width with h | h
    · simp [elements, h] at hp
    · exact h
  have hh : 0 < t.height := by
    rcases Nat.eq_zero_or_pos t.height with h | h
    · simp [elements, h] at hp
    · exact h
  have e : t.elements = t.maps * t.width * t.height := by unfold elements; rw [h1]; ring
  have b1 : t.maps ≤ t.elements := by
    rw [e, Nat.mul_assoc]; exact Nat.le_mul_of_pos_right _ (Nat.mul_pos hwd hh)
  have b2 : t.width ≤ t.elements := by
    rw [e, Nat.mul_right_comm]; exact Nat.le_mul_of_pos_left _ (Nat.mul_pos hm hh)
  have b3 : t.height ≤ t.elements := by
    rw [e]; exact Nat.le_mul_of_pos_left _ (Nat.mul_pos hm hwd)
  exact ⟨by omega, by omega, by omega, by omega, by omega, by omega, by omega, k7⟩

/-- C07: a file written from `ts` starts with the magic number, loads as one compressed tensor
per tensor with the same dimensions, and copying sample `i` of tensor `k` out of it is copying
it out of a tensor with the same shape and the same values as `ts[k]`. -/
theorem C07_compressed_file (mmap : Bool) (ts : List (Tensor F32)) (hts : ∀ t ∈ ts, Storable t) :
    ∃ file cs, writeFile ts = some file ∧ isCompressedFile file = true ∧
      load mmap file = .ok cs ∧ cs.length = ts.length ∧
      ∀ k (hk : k < ts.length), ∃ u : Tensor F32,
        u.samples = ts[k].samples ∧ u.width = ts[k].width ∧ u.height = ts[k].height ∧
        u.maps = ts[k].maps ∧ List.Forall₂ SameValue ts[k].data u.data ∧
        cs[k]?.map (fun c => (c.samples, c.width, c.height, c.maps)) =
          some (u.samples, u.width, u.height, u.maps) ∧
        ∀ (target : Tensor F32) (i j : Nat), target.WF → j < target.samples →
          ∃ r, Tensor.copySample u i target j = some r ∧
            Compress.copySample cs (maxElements cs) k i target j = .ok r := by
  have hmap : ∃ cs, ts.mapM compress = some cs ∧ List.Forall₂ (fun t c => compress t = some c) ts cs := by
    induction ts with
    | nil => exact ⟨[], rfl, .nil⟩
    | cons t ts ih =>
      obtain ⟨c, _, h, _⟩ := storable_compress (hts t (by simp))
      obtain ⟨cs, h1, h2⟩ := ih (fun t ht => hts t (by simp [ht]))
      exact ⟨c :: cs, by simp [List.mapM_cons, h, h1], .cons h h2⟩
  obtain ⟨cs, hcs, hall⟩ := hmap
  have hlen : cs.length = ts.length := hall.length_eq.symm
  have hget : ∀ k (hk : k < ts.length), compress ts[k] = some (cs[k]'(by omega)) :=
    fun k hk => List.forall₂_iff_get.1 hall |>.2 k hk (by omega)
  have hfits : ∀ c ∈ cs, c.Fits := by
    intro c hc
    obtain ⟨k, hk, rfl⟩ := List.getElem_of_mem hc
    obtain ⟨c', _, h1, h2, _⟩ := storable_compress (hts _ (List.getElem_mem (show k < ts.length by omega)))
    rw [hget k (by omega)] at h1
    rw [Option.some.inj h1]; exact h2
  refine ⟨leBytes 8 magic ++ cs.flatMap CTensor.serialize, cs, by simp [writeFile, hcs], ?_,
    load_records mmap cs hfits, hlen, ?_⟩
  · unfold isCompressedFile
    have hat : ({ bytes := leBytes 8 magic ++ cs.flatMap CTensor.serialize } : IStream).At
        (leBytes 8 magic ++ cs.flatMap CTensor.serialize) := ⟨rfl, rfl, by simp, by simp⟩
    rw [(hat.readU64 (by decide)).1]
    simp
  · intro k hk
    have hst := hts _ (List.getElem_mem hk)
    obtain ⟨c, ds, h1, h2, h3, h4, h5, h6, h7, h8, h9, h10, h11⟩ := storable_compress hst
    have hck : cs[k]? = some c := by
      rw [List.getElem?_eq_getElem (by omega)]
      congr 1
      rw [hget k hk] at h1
      exact Option.some.inj h1
    have huw : (⟨c.samples, c.width, c.height, c.maps, ds⟩ : Tensor F32).WF := by
      show ds.length = c.samples * c.maps * c.width * c.height
      rw [h8, ← h7]; unfold CTensor.elements; ring
    refine ⟨⟨c.samples, c.width, c.height, c.maps, ds⟩, h3, h4, h5, h6, h11, by simp [hck], ?_⟩
    intro target i j htw hj
    obtain ⟨hw, hs1, hp, hl⟩ := hst
    unfold Compress.copySample
    rw [hck]
    simp only
    split
    · rename_i hc
      obtain ⟨rfl, c1, c2, c3, c4⟩ := hc
      have hsp := splice_eq_copySample _ target huw htw j c4 c1 c2 c3 hj
      refine ⟨_, hsp, ?_⟩
      have hE : ds.length = target.maps * target.width * target.height := by
        rw [huw]; unfold elements; simp only []; rw [c4, c1, c2, c3, Nat.one_mul]
      have hoff : target.offset 0 0 0 j = j * ds.length := by
        rw [hE]; unfold offset; ring
      have htl : target.data.length = target.samples * ds.length := by
        rw [htw, hE]; unfold elements; ring
      have hle : j * ds.length + ds.length ≤ target.samples * ds.length := by
        have := Nat.mul_le_mul_right ds.length (show j + 1 ≤ target.samples from hj)
        rw [Nat.succ_mul] at this; exact this
      rw [decompressData_ok h10 h9 (by omega) (Nat.mul_le_mul_right _ (by rw [hoff, htl]; omega))]
      simp only []
      rw [if_neg (by omega), datums_flatMap]
    · have hmax : c.elements ≤ maxElements cs := elements_le_max (List.mem_of_getElem? hck)
      rw [decompressData_ok h10 h9 (by omega) (Nat.mul_le_mul_right _ (by omega))]
      simp only []
      rw [if_neg (by omega), datums_flatMap]
      have hm : 0 < c.maps := by
        rcases Nat.eq_zero_or_pos c.maps with h | h
        · have : c.elements = 0 := by simp [CTensor.elements, h]
          omega
        · exact h
      by_cases hok : c.maps = target.maps ∧ i < c.samples ∧ j < target.samples ∧
          c.width ≤ target.width ∧ c.height ≤ target.height
      · obtain ⟨u, e, _⟩ := copySample_ok huw htw hok.1 hok.2.1 hok.2.2.1 hok.2.2.2.1 hok.2.2.2.2
        exact ⟨_, e, by rw [e]⟩
      · have e := copySample_fail (source := ⟨c.samples, c.width, c.height, c.maps, ds⟩)
          (target := target) (i := i) (j := j) hm hok
        exact ⟨_, e, by rw [e]⟩

/-- C07, a limit of the code: with a target of the right picture size, a target sample that
does not exist is not rejected (as `Tensor::CopySample` would) but written out of bounds. -/
theorem C07_target_sample_unchecked :
    Compress.copySample [⟨1, 1, 1, 1, [1#8, 2#8, 3#8, 4#8]⟩] 1 0 0 ⟨1, 1, 1, 1, [0#32]⟩ 1 = .ub ∧
    Tensor.copySample (⟨1, 1, 1, 1, [0x04030201#32]⟩ : Tensor F32) 0 ⟨1, 1, 1, 1, [0#32]⟩ 1 =
      some (false, ⟨1, 1, 1, 1, [0#32]⟩) := by decide

example : Storable smallTensor := ⟨by decide, rfl, by decide, by decide⟩

end CN24.Props
