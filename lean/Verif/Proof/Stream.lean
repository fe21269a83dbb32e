import Verif.Model.Stream
import Verif.Proof.Compress
import Verif.Proof.TensorOps

namespace CN24
namespace IStream

/-- The stream is good and `bs` is what is left to read. -/
def At (s : IStream) (bs : List Byte) : Prop :=
  s.eof = false ∧ s.fail = false ∧ s.pos ≤ s.bytes.length ∧ s.bytes.drop s.pos = bs

theorem At.good {s : IStream} {bs : List Byte} (h : s.At bs) : s.good = true := by
  simp [IStream.good, h.1, h.2.1]

theorem At.len {s : IStream} {bs : List Byte} (h : s.At bs) :
    s.bytes.length = s.pos + bs.length := by
  have := congrArg List.length h.2.2.2
  simp at this
  have := h.2.2.1
  omega

theorem At.read {s : IStream} {bs rest : List Byte} {n : Nat} (h : s.At (bs ++ rest))
    (hn : bs.length = n) :
    s.read n = (bs, { s with pos := s.pos + n }) ∧ ({ s with pos := s.pos + n } : IStream).At rest := by
  have hl := h.len
  simp only [List.length_append] at hl
  constructor
  · unfold IStream.read
    rw [if_pos h.good, h.2.2.2]
    subst hn
    simp
  · refine ⟨h.1, h.2.1, by simp; omega, ?_⟩
    simp only
    rw [← List.drop_drop, h.2.2.2, ← hn]
    simp

theorem At.readU64 {s : IStream} {rest : List Byte} {n : Nat}
    (h : s.At (leBytes 8 n ++ rest)) (hn : n < 2 ^ 64) :
    s.readU64 = (n, { s with pos := s.pos + 8 }) ∧ ({ s with pos := s.pos + 8 } : IStream).At rest := by
  obtain ⟨h1, h2⟩ := h.read (leBytes_length 8 n)
  refine ⟨?_, h2⟩
  unfold IStream.readU64
  rw [h1]
  simp only
  rw [ofLe_leBytes_of_lt (by simpa using hn)]

@[simp] theorem read_bytes (s : IStream) (n : Nat) : (s.read n).2.bytes = s.bytes := by
  unfold IStream.read
  split
  · simp only; split <;> rfl
  · rfl

@[simp] theorem readU64_bytes (s : IStream) : (s.readU64).2.bytes = s.bytes := by
  simp [readU64]

@[simp] theorem skip_bytes (s : IStream) (n : Nat) : (s.skip n).bytes = s.bytes := by
  unfold skip; split <;> rfl

@[simp] theorem peek_bytes (s : IStream) : s.peek.bytes = s.bytes := by
  unfold peek; split
  · split <;> rfl
  · rfl

theorem read_fail {s : IStream} (n : Nat) (h : s.fail = true) :
    s.read n = ([], s) := by
  unfold IStream.read
  rw [if_neg (by simp [good, h])]
  cases s; simp_all

theorem readU64_fail {s : IStream} (h : s.fail = true) : s.readU64 = (0, s) := by
  simp [readU64, read_fail 8 h, ofLe]

theorem read_ok {s : IStream} {n : Nat} (h : (s.read n).2.fail = false) :
    s.good = true ∧ (s.bytes.drop s.pos).length ≥ n ∧
    (s.read n).2 = { s with pos := s.pos + n } ∧ (s.read n).1 = (s.bytes.drop s.pos).take n := by
  unfold IStream.read at *
  split at h
  · rename_i hg
    simp only at h ⊢
    rw [if_pos hg]
    split at h
    · simp at h
    · rename_i hl
      rw [if_neg hl]
      simp at hl ⊢
      refine ⟨hg, by omega⟩
  · simp at h

theorem readU64_ok {s : IStream} (h : (s.readU64).2.fail = false) :
    s.fail = false ∧ s.pos + 8 ≤ s.bytes.length ∧
    (s.readU64).2 = { s with pos := s.pos + 8 } := by
  have := read_ok (s := s) (n := 8) h
  refine ⟨by simpa [good] using (by simpa [good] using this.1 : s.eof = false ∧ s.fail = false).2, ?_, this.2.2.1⟩
  have h2 := this.2.1
  simp at h2; omega

theorem skip_fail {s : IStream} (n : Nat) (h : s.fail = true) : (s.skip n).fail = true := by
  simp [skip, h]

theorem peek_fail {s : IStream} (h : s.fail = true) : s.peek.fail = true := by
  simp [peek, good, h]

theorem At.peek {s : IStream} {bs : List Byte} (h : s.At bs) :
    (bs ≠ [] ∧ s.peek = s) ∨ (bs = [] ∧ s.peek.eof = true) := by
  have hl := h.len
  unfold IStream.peek
  rw [if_pos h.good]
  cases bs with
  | nil => right; rw [if_neg (by simp at hl; omega)]; simp
  | cons b bs => left; rw [if_pos (by simp at hl; omega)]; simp

/-- After reading beyond the file, the loop conditions see the end. -/
theorem peek_end {s : IStream} (h : s.fail = true ∨ s.bytes.length ≤ s.pos) :
    s.peek.eof = true ∨ s.peek.fail = true := by
  unfold IStream.peek
  split
  · rename_i hg
    have hf : s.fail = false := by simp [good] at hg; exact hg.2
    rcases h with h | h
    · simp [h] at hf
    · rw [if_neg (by omega)]; simp
  · simp

end IStream

namespace Tensor
open IStream

/-- The dimensions and the byte count can be represented in 64 bits. -/
def Fits (t : Tensor F32) : Prop :=
  t.samples < 2 ^ 64 ∧ t.width < 2 ^ 64 ∧ t.height < 2 ^ 64 ∧ t.maps < 2 ^ 64 ∧
    t.elements * 4 < 2 ^ 64

instance (t : Tensor F32) : Decidable t.Fits := inferInstanceAs (Decidable (_ ∧ _))

/-- A loaded tensor all of whose contents are known. -/
def known (t : Tensor F32) : Tensor (Option F32) :=
  ⟨t.samples, t.width, t.height, t.maps, t.data.map some⟩

theorem cells_flatMap (ds : List F32) (rest : List Byte) :
    cells ds.length (ds.flatMap datumBytes ++ rest) = ds.map some := by
  induction ds with
  | nil => rfl
  | cons d ds ih =>
    have h4 : (datumBytes d).length = 4 := datumBytes_length d
    simp only [List.length_cons, cells, List.flatMap_cons, List.append_assoc, List.map_cons]
    have e1 : (datumBytes d ++ (ds.flatMap datumBytes ++ rest)).take 4 = datumBytes d := by
      rw [List.take_append_of_le_length (by omega), List.take_of_length_le (by omega)]
    have e2 : (datumBytes d ++ (ds.flatMap datumBytes ++ rest)).drop 4 = ds.flatMap datumBytes ++ rest := by
      rw [List.drop_append_of_le_length (by omega), List.drop_of_length_le (by omega)]; rfl
    rw [e1, e2, ih, if_pos (by simp only [List.length_append]; omega), datumOf_datumBytes]

theorem header {s : IStream} {t : Tensor F32} {rest : List Byte} (hf : t.Fits)
    (h : s.At (leBytes 8 t.samples ++ leBytes 8 t.width ++ leBytes 8 t.height ++
      leBytes 8 t.maps ++ rest)) :
    ∃ s1 s2 s3 s4, s.readU64 = (t.samples, s1) ∧ s1.readU64 = (t.width, s2) ∧
      s2.readU64 = (t.height, s3) ∧ s3.readU64 = (t.maps, s4) ∧ s4.At rest ∧
      s4 = { s with pos := s.pos + 32 } := by
  simp only [List.append_assoc] at h
  obtain ⟨h1, k1⟩ := h.readU64 hf.1
  obtain ⟨h2, k2⟩ := k1.readU64 hf.2.1
  obtain ⟨h3, k3⟩ := k2.readU64 hf.2.2.1
  obtain ⟨h4, k4⟩ := k3.readU64 hf.2.2.2.1
  exact ⟨_, _, _, _, h1, h2, h3, h4, k4, rfl⟩

theorem serialize_length (t : Tensor F32) (hw : t.WF) :
    t.serialize.length = 32 + t.elements * 4 := by
  unfold serialize
  split
  · simp only [List.length_append, leBytes_length, Compress.flatMap_length]
    rw [hw]; omega
  · rename_i h
    have h : t.elements = 0 := by omega
    simp [h]

theorem deserialize_ok {s : IStream} {t : Tensor F32} {rest : List Byte} (mmap : Bool)
    (hw : t.WF) (hp : 0 < t.elements) (hf : t.Fits) (h : s.At (t.serialize ++ rest)) :
    deserialize false mmap s = (t.known, { s with pos := s.pos + t.serialize.length }) ∧
    ({ s with pos := s.pos + t.serialize.length } : IStream).At rest := by
  have hlen := serialize_length t hw
  have hser : t.serialize = leBytes 8 t.samples ++ leBytes 8 t.width ++ leBytes 8 t.height ++
      leBytes 8 t.maps ++ t.data.flatMap datumBytes := by
    unfold serialize; rw [if_pos hp]
  have h' := h
  rw [hser, List.append_assoc] at h'
  obtain ⟨s1, s2, s3, s4, e1, e2, e3, e4, k4, rfl⟩ := header hf h'
  have hdl : (t.data.flatMap datumBytes).length = t.elements * 4 := by
    rw [Compress.flatMap_length, hw]; omega
  obtain ⟨hr, hk⟩ := k4.read hdl
  have hel : u64 (t.samples * t.maps * t.width * t.height) = t.elements := by
    unfold u64; exact Nat.mod_eq_of_lt (by have := hf.2.2.2.2; unfold elements at this; omega)
  have hb : u64 (t.elements * 4) = t.elements * 4 := Nat.mod_eq_of_lt hf.2.2.2.2
  have hcells := cells_flatMap t.data rest
  have hcells' := cells_flatMap t.data []
  rw [hw] at hcells hcells'
  rw [List.append_nil] at hcells'
  have hat : ({ s with pos := s.pos + t.serialize.length } : IStream).At rest := by
    have : ({ s with pos := s.pos + t.serialize.length } : IStream) =
        { s with pos := s.pos + 32 + t.elements * 4 } := by rw [hlen, ← Nat.add_assoc]
    rw [this]; exact hk
  refine ⟨?_, hat⟩
  unfold deserialize
  rw [e1]; simp only []
  rw [e2]; simp only []
  rw [e3]; simp only []
  rw [e4]; simp only [hel, hb, hp, and_self, if_true]
  cases mmap with
  | true =>
    simp only [if_true, h.2.1, Bool.false_eq_true, if_false, skip, k4.2.2.2, hcells, known]
    rw [hlen, Nat.add_assoc, h.1]
  | false =>
    simp only [Bool.false_eq_true, if_false, hr, hcells', known]
    rw [hlen, Nat.add_assoc]

theorem deserialize_empty {s : IStream} {t : Tensor F32} {rest : List Byte} (mmap : Bool)
    (hp : t.elements = 0) (hf : t.Fits) (h : s.At (t.serialize ++ rest)) :
    deserialize false mmap s = (⟨0, 0, 0, 0, []⟩, { s with pos := s.pos + t.serialize.length }) := by
  have hser : t.serialize = leBytes 8 t.samples ++ leBytes 8 t.width ++ leBytes 8 t.height ++
      leBytes 8 t.maps ++ [] := by
    unfold serialize; rw [if_neg (by omega)]
  have hlen : t.serialize.length = 32 := by rw [hser]; simp
  have h' := h
  rw [hser, List.append_assoc] at h'
  obtain ⟨s1, s2, s3, s4, e1, e2, e3, e4, k4, rfl⟩ := header hf h'
  have hel : u64 (t.samples * t.maps * t.width * t.height) = 0 := by
    unfold elements at hp; rw [hp]; rfl
  unfold deserialize
  rw [e1]; simp only []
  rw [e2]; simp only []
  rw [e3]; simp only []
  rw [e4]; simp only [hel, Nat.lt_irrefl, false_and, if_false, Bool.false_eq_true]
  rw [hlen]

/-- On a failed stream nothing is delivered. -/
theorem deserialize_fail {s : IStream} (mmap : Bool) (h : s.fail = true) :
    deserialize false mmap s = (⟨0, 0, 0, 0, []⟩, s) := by
  unfold deserialize
  rw [readU64_fail h]; simp only [readU64_fail h]
  simp [u64]

/-- Where the stream is after any deserialization: failed, or at least 32 bytes further. -/
theorem deserialize_progress (s : IStream) (mmap : Bool) :
    (deserialize false mmap s).2.bytes = s.bytes ∧
    ((deserialize false mmap s).2.fail = true ∨
      (s.pos + 32 ≤ (deserialize false mmap s).2.pos ∧ s.fail = false)) := by
  obtain ⟨v1, s1, e1⟩ : ∃ v t, s.readU64 = (v, t) := ⟨_, _, rfl⟩
  obtain ⟨v2, s2, e2⟩ : ∃ v t, s1.readU64 = (v, t) := ⟨_, _, rfl⟩
  obtain ⟨v3, s3, e3⟩ : ∃ v t, s2.readU64 = (v, t) := ⟨_, _, rfl⟩
  obtain ⟨v4, s4, e4⟩ : ∃ v t, s3.readU64 = (v, t) := ⟨_, _, rfl⟩
  have b1 : s1.bytes = s.bytes := by rw [← readU64_bytes s, e1]
  have b2 : s2.bytes = s1.bytes := by rw [← readU64_bytes s1, e2]
  have b3 : s3.bytes = s2.bytes := by rw [← readU64_bytes s2, e3]
  have b4 : s4.bytes = s3.bytes := by rw [← readU64_bytes s3, e4]
  have hhead : s4.fail = true ∨ (s4.pos = s.pos + 32 ∧ s.fail = false) := by
    by_cases hfail : s4.fail = true
    · exact .inl hfail
    · right
      have f4 := readU64_ok (s := s3) (by rw [e4]; simpa using hfail)
      have f3 := readU64_ok (s := s2) (by rw [e3]; exact f4.1)
      have f2 := readU64_ok (s := s1) (by rw [e2]; exact f3.1)
      have f1 := readU64_ok (s := s) (by rw [e1]; exact f2.1)
      rw [e4] at f4; rw [e3] at f3; rw [e2] at f2; rw [e1] at f1
      have p4 := congrArg IStream.pos f4.2.2
      have p3 := congrArg IStream.pos f3.2.2
      have p2 := congrArg IStream.pos f2.2.2
      have p1 := congrArg IStream.pos f1.2.2
      simp only at p1 p2 p3 p4
      exact ⟨by omega, f1.1⟩
  unfold deserialize
  rw [e1]; simp only []
  rw [e2]; simp only []
  rw [e3]; simp only []
  rw [e4]; simp only [and_true, Bool.false_eq_true, if_false]
  have hbytes : s4.bytes = s.bytes := by rw [b4, b3, b2, b1]
  split
  · split
    · simp only [skip_bytes]
      refine ⟨hbytes, ?_⟩
      rcases hhead with h | h
      · exact .inl (skip_fail _ h)
      · by_cases hf : s4.fail = true
        · exact .inl (skip_fail _ hf)
        · right; refine ⟨?_, h.2⟩; simp only [skip, hf, if_false, Bool.false_eq_true]; omega
    · simp only [read_bytes]
      refine ⟨hbytes, ?_⟩
      generalize u64 (u64 (v1 * v4 * v2 * v3) * 4) = n
      by_cases hf : (s4.read n).2.fail = true
      · exact .inl hf
      · right
        have := read_ok (s := s4) (n := n) (by simpa using hf)
        have hg : s4.fail = false := by
          have := this.1; simp [good] at this; exact this.2
        rcases hhead with h | h
        · simp [h] at hg
        · have hp := congrArg IStream.pos this.2.2.1
          simp only at hp
          exact ⟨by omega, h.2⟩
  · simp only []
    refine ⟨hbytes, ?_⟩
    rcases hhead with h | h
    · exact .inl h
    · exact .inr ⟨by omega, h.2⟩

/-- Deserializing from a record that is cut short ends at or behind the end of the file. -/
theorem deserialize_cut {s : IStream} {t : Tensor F32} {j : Nat} (mmap : Bool)
    (hw : t.WF) (hp : 0 < t.elements) (hf : t.Fits) (hj : j < t.serialize.length)
    (h : s.At (t.serialize.take j)) :
    (deserialize false mmap s).2.fail = true ∨
      s.bytes.length ≤ (deserialize false mmap s).2.pos := by
  have hlen := h.len
  rw [List.length_take, Nat.min_eq_left (by omega)] at hlen
  by_cases hj32 : j < 32
  · rcases (deserialize_progress s mmap).2 with h1 | h1
    · exact .inl h1
    · right; omega
  · have hser : t.serialize = (leBytes 8 t.samples ++ leBytes 8 t.width ++ leBytes 8 t.height ++
        leBytes 8 t.maps) ++ t.data.flatMap datumBytes := by
      unfold serialize; rw [if_pos hp]
    have hsl := serialize_length t hw
    have h' := h
    rw [hser, List.take_append, List.take_of_length_le (by simp; omega)] at h'
    obtain ⟨s1, s2, s3, s4, e1, e2, e3, e4, k4, rfl⟩ := header hf h'
    have hel : u64 (t.samples * t.maps * t.width * t.height) = t.elements := by
      unfold u64; exact Nat.mod_eq_of_lt (by have := hf.2.2.2.2; unfold elements at this; omega)
    have hb : u64 (t.elements * 4) = t.elements * 4 := Nat.mod_eq_of_lt hf.2.2.2.2
    unfold deserialize
    rw [e1]; simp only []
    rw [e2]; simp only []
    rw [e3]; simp only []
    rw [e4]; simp only [hel, hb, hp, and_self, if_true]
    cases mmap with
    | true =>
      right
      simp only [if_true, skip, h.2.1, Bool.false_eq_true, if_false]
      omega
    | false =>
      left
      simp only [Bool.false_eq_true, if_false]
      by_contra hc
      have := read_ok (s := { s with pos := s.pos + 32 }) (n := t.elements * 4) (by simpa using hc)
      have h2 := this.2.1
      simp at h2
      omega

end Tensor

open IStream Tensor

theorem floatLoop_stop {mmap : Bool} {fuel : Nat} {s : IStream} {acc : List (Tensor (Option F32))}
    (h : s.eof = true ∨ s.fail = true) : floatLoop mmap (fuel + 1) s acc = some acc := by
  unfold floatLoop
  by_cases he : s.eof = true
  · simp [he]
  · have hf : s.fail = true := by rcases h with h | h; exact absurd h he; exact h
    rw [if_neg he]
    simp only [deserialize_fail mmap hf]
    simp [elements]

theorem floatLoop_at_nil {mmap : Bool} {fuel : Nat} {s : IStream}
    {acc : List (Tensor (Option F32))} (h : s.At []) :
    floatLoop mmap (fuel + 1) s acc = some acc := by
  have hl := h.len
  simp at hl
  have hr : s.readU64 = (0, { s with eof := true, fail := true }) := by
    unfold IStream.readU64 IStream.read
    rw [if_pos h.good, h.2.2.2]
    simp [ofLe]
  have hr' := readU64_fail (s := { s with eof := true, fail := true }) rfl
  unfold floatLoop
  rw [if_neg (by simp [h.1])]
  have : deserialize false mmap s = (⟨0, 0, 0, 0, []⟩, { s with eof := true, fail := true }) := by
    unfold deserialize
    rw [hr]; simp only [hr']
    simp [u64]
  simp only [this]
  simp [elements]

theorem floatLoop_records {mmap : Bool} (ts : List (Tensor F32))
    (hts : ∀ t ∈ ts, t.WF ∧ 0 < t.elements ∧ t.Fits) (tail : List Byte) :
    ∀ (fuel : Nat) (s : IStream) (acc : List (Tensor (Option F32))),
      ts.length ≤ fuel → s.At (ts.flatMap serialize ++ tail) →
      ∃ s', floatLoop mmap fuel s acc =
          floatLoop mmap (fuel - ts.length) s' (acc ++ ts.map known) ∧
        (s'.At tail ∨ (tail = [] ∧ s'.eof = true)) := by
  induction ts with
  | nil =>
    intro fuel s acc _ h
    exact ⟨s, by simp, .inl (by simpa using h)⟩
  | cons t ts ih =>
    intro fuel s acc hfuel h
    obtain ⟨hw, hp, hf⟩ := hts t (by simp)
    simp only [List.length_cons] at hfuel
    obtain ⟨fuel, rfl⟩ : ∃ k, fuel = k + 1 := ⟨fuel - 1, by omega⟩
    simp only [List.flatMap_cons, List.append_assoc] at h
    obtain ⟨h1, h2⟩ := deserialize_ok mmap hw hp hf h
    have hstep : floatLoop mmap (fuel + 1) s acc =
        floatLoop mmap fuel ({ s with pos := s.pos + t.serialize.length } : IStream).peek
          (acc ++ [t.known]) := by
      conv => lhs; unfold floatLoop
      rw [if_neg (by simp [h.1])]
      simp only [h1]
      rw [if_neg (by unfold known elements; simp only; unfold elements at hp; omega)]
    rcases h2.peek with ⟨hne, hpk⟩ | ⟨he, hpk⟩
    · rw [hpk] at hstep
      obtain ⟨s', k1, k2⟩ := ih (fun t ht => hts t (by simp [ht])) fuel _ (acc ++ [t.known])
        (by omega) h2
      refine ⟨s', ?_, k2⟩
      rw [hstep, k1]
      simp [Nat.add_sub_add_right]
    · have hnil : ts = [] ∧ tail = [] := by
        have h3 : ts.flatMap serialize = [] ∧ tail = [] := by simpa using he
        refine ⟨?_, h3.2⟩
        cases ts with
        | nil => rfl
        | cons u us =>
          have := serialize_length u (hts u (by simp)).1
          have h4 := congrArg List.length h3.1
          simp [this] at h4
      obtain ⟨rfl, rfl⟩ := hnil
      refine ⟨_, ?_, .inr ⟨rfl, hpk⟩⟩
      rw [hstep]
      simp

theorem floatLoop_terminates {mmap : Bool} : ∀ (fuel : Nat) (s : IStream)
    (acc : List (Tensor (Option F32))), s.bytes.length - s.pos + 2 ≤ fuel →
    ∃ l, floatLoop mmap fuel s acc = some l := by
  intro fuel
  induction fuel with
  | zero => intro s acc h; omega
  | succ fuel ih =>
    intro s acc h
    unfold floatLoop
    split
    · exact ⟨_, rfl⟩
    · simp only
      split
      · exact ⟨_, rfl⟩
      · obtain ⟨hb, hpr⟩ := deserialize_progress s mmap
        generalize hr : (deserialize false mmap s).2 = r at *
        obtain ⟨fuel, rfl⟩ : ∃ k, fuel = k + 1 := ⟨fuel - 1, by omega⟩
        by_cases hend : r.fail = true ∨ r.bytes.length ≤ r.pos
        · exact ⟨_, floatLoop_stop (peek_end hend)⟩
        · apply ih
          have : r.peek.pos = r.pos := by
            unfold IStream.peek; split
            · split <;> rfl
            · rfl
          rw [peek_bytes, this, hb]
          have : r.fail = false := by
            cases hrf : r.fail <;> simp_all
          rcases hpr with hpr | hpr
          · simp [this] at hpr
          · have : r.pos < r.bytes.length := by
              by_contra hc; exact hend (.inr (by omega))
            rw [hb] at this
            omega

theorem records_le_bytes (ts : List (Tensor F32)) (hts : ∀ t ∈ ts, t.WF) :
    ts.length ≤ (ts.flatMap serialize).length := by
  induction ts with
  | nil => simp
  | cons t ts ih =>
    have h1 := ih (fun t ht => hts t (by simp [ht]))
    have h2 := serialize_length t (hts t (by simp))
    simp only [List.flatMap_cons, List.length_append, List.length_cons]
    omega

theorem floatLoad_records (mmap : Bool) (ts : List (Tensor F32))
    (hts : ∀ t ∈ ts, t.WF ∧ 0 < t.elements ∧ t.Fits) :
    floatLoad mmap (ts.flatMap serialize) = some (ts.map known) := by
  unfold floatLoad
  have hl := records_le_bytes ts (fun t ht => (hts t ht).1)
  obtain ⟨s', h1, h2⟩ := floatLoop_records (mmap := mmap) ts hts [] ((ts.flatMap serialize).length + 3)
    { bytes := ts.flatMap serialize } [] (by omega) ⟨rfl, rfl, by simp, by simp⟩
  rw [h1]
  obtain ⟨k, hk⟩ : ∃ k, (ts.flatMap serialize).length + 3 - ts.length = k + 1 := ⟨_, by
    rw [Nat.sub_add_comm hl, show ∀ a, a + 3 = (a + 2) + 1 from fun _ => rfl]⟩
  rw [hk]
  rcases h2 with h2 | h2
  · rw [floatLoop_at_nil h2]; simp
  · rw [floatLoop_stop (.inl h2.2)]; simp

theorem floatLoad_cut (mmap : Bool) (ts : List (Tensor F32))
    (hts : ∀ t ∈ ts, t.WF ∧ 0 < t.elements ∧ t.Fits) (t : Tensor F32)
    (ht : t.WF ∧ 0 < t.elements ∧ t.Fits) (j : Nat) (hj : j < t.serialize.length) :
    ∃ extra, extra.length ≤ 1 ∧
      floatLoad mmap (ts.flatMap serialize ++ t.serialize.take j) =
        some (ts.map known ++ extra) := by
  unfold floatLoad
  have hl := records_le_bytes ts (fun t ht => (hts t ht).1)
  generalize hbs : ts.flatMap serialize ++ t.serialize.take j = bs
  have hbl : ts.length ≤ bs.length := by rw [← hbs]; simp only [List.length_append]; omega
  obtain ⟨s', h1, h2⟩ := floatLoop_records (mmap := mmap) ts hts (t.serialize.take j)
    (bs.length + 3) { bytes := bs } [] (by omega) ⟨rfl, rfl, by simp, by simp [hbs]⟩
  rw [h1]
  obtain ⟨k, hk⟩ : ∃ k, bs.length + 3 - ts.length = k + 2 := ⟨bs.length - ts.length + 1, by omega⟩
  rw [hk]
  rcases h2 with h2 | h2
  · have hc := deserialize_cut mmap ht.1 ht.2.1 ht.2.2 hj h2
    have hb := (deserialize_progress s' mmap).1
    unfold floatLoop
    rw [if_neg (by simp [h2.1])]
    simp only
    split
    · exact ⟨[], by simp, by simp⟩
    · rw [floatLoop_stop (peek_end (by rw [hb]; exact hc))]
      exact ⟨[(deserialize false mmap s').1], by simp, by simp⟩
  · rw [show k + 2 = (k + 1) + 1 from rfl, floatLoop_stop (.inl h2.2)]
    exact ⟨[], by simp, by simp⟩

end CN24
