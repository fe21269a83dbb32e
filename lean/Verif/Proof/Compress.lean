import Verif.Model.Compress
import Mathlib.Data.List.Forall2

namespace CN24.Compress
open CN24

/-- Same bits, or equal as C++ floats. -/
def rel (a b : F32) : Prop := a = b ∨ feq a b = true

theorem rel.rfl' (a : F32) : rel a a := .inl rfl

theorem rel.trans {a b c : F32} (h : rel a b) (h' : rel b c) : rel a c := by
  rcases h with rfl | h
  · exact h'
  · rcases h' with rfl | h'
    · exact .inr h
    · exact .inr (feq_trans h h')

/-! ### What one run is encoded as -/

def litEnc (bs : List Byte) : List Byte :=
  bs.flatMap fun b => if b = marker then [marker, marker] else [b]

def runEnc (n : Nat) (d : F32) : List Byte :=
  if n = 0 then [] else if n = 1 then litEnc (datumBytes d)
  else [marker, rle, BitVec.ofNat 8 (n % 256)] ++ datumBytes d

theorem litEnc_length_le (bs : List Byte) : (litEnc bs).length ≤ 2 * bs.length := by
  induction bs with
  | nil => simp [litEnc]
  | cons b bs ih =>
    simp only [litEnc, List.flatMap_cons, List.length_append, List.length_cons] at *
    split <;> simp only [List.length_cons, List.length_nil] <;> omega

theorem litEnc_length_ge (bs : List Byte) : bs.length ≤ (litEnc bs).length := by
  induction bs with
  | nil => simp [litEnc]
  | cons b bs ih =>
    simp only [litEnc, List.flatMap_cons, List.length_append, List.length_cons] at *
    split <;> simp only [List.length_cons, List.length_nil] <;> omega

theorem runEnc_length_le (n : Nat) (d : F32) : (runEnc n d).length ≤ 8 * n := by
  unfold runEnc
  split
  · simp
  split
  · have := litEnc_length_le (datumBytes d); simp at this; omega
  · simp; omega

def emits (cap : Nat) : List Byte → CState → Option CState
  | [], st => some st
  | b :: bs, st => (emit cap b st).bind (emits cap bs)

theorem emits_eq {cap : Nat} {bs : List Byte} {st : CState} (h : st.out.length + bs.length ≤ cap) :
    emits cap bs st = some { st with out := st.out ++ bs, bytesOut := st.bytesOut + bs.length } := by
  induction bs generalizing st with
  | nil => simp [emits]
  | cons b bs ih =>
    simp only [List.length_cons] at h
    simp only [emits, emit]
    rw [if_pos (by omega), Option.bind_some, ih (by simp; omega)]
    simp; omega

theorem emits_append {cap : Nat} (bs cs : List Byte) (st : CState) :
    emits cap (bs ++ cs) st = (emits cap bs st).bind (emits cap cs) := by
  induction bs generalizing st with
  | nil => rfl
  | cons b bs ih =>
    simp only [List.cons_append, emits]
    cases h : emit cap b st with
    | none => rfl
    | some st' => simpa using ih st'

theorem emit_last {cap : Nat} {b : Byte} {st st' : CState} (h : emit cap b st = some st') :
    st'.lastSymbol = st.lastSymbol ∧ st'.runningLength = st.runningLength := by
  unfold emit at h; split at h <;> simp at h; simp [← h]

theorem emits_last {cap : Nat} {bs : List Byte} {st st' : CState} (h : emits cap bs st = some st') :
    st'.lastSymbol = st.lastSymbol ∧ st'.runningLength = st.runningLength := by
  induction bs generalizing st with
  | nil => simp [emits] at h; simp [← h]
  | cons b bs ih =>
    simp only [emits, Option.bind_eq_some_iff] at h
    obtain ⟨u, h1, h2⟩ := h
    have e1 := emit_last h1
    have e2 := ih h2
    exact ⟨e2.1.trans e1.1, e2.2.trans e1.2⟩

theorem datumBytes_four (d : F32) : ∃ a b c e, datumBytes d = [a, b, c, e] :=
  ⟨_, _, _, _, rfl⟩

/-- The loop over the bytes of `last_symbol`, each byte `c` being emitted as `f c`. -/
theorem byteLoop {cap : Nat} (d : F32) (f : Byte → List Byte) (st : CState)
    (hst : st.lastSymbol = d) :
    forLoop 4 (fun b st => (rd (datumBytes st.lastSymbol) b).bind fun c => emits cap (f c) st) st
      = emits cap ((datumBytes d).flatMap f) st := by
  obtain ⟨a, b, c, e, h⟩ := datumBytes_four d
  have key : ∀ (bs : List Byte) (i : Nat) (x : Byte) (u : CState),
      emits cap bs st = some u → (datumBytes d)[i]? = some x →
      (rd (datumBytes u.lastSymbol) i).bind (fun c => emits cap (f c) u) = emits cap (f x) u := by
    intro bs i x u hu hx
    rw [(emits_last hu).1, hst]
    simp [rd, hx]
  have step : ∀ (bs : List Byte) (i : Nat) (x : Byte), (datumBytes d)[i]? = some x →
      (emits cap bs st).bind (fun u =>
        (rd (datumBytes u.lastSymbol) i).bind (fun c => emits cap (f c) u)) =
      emits cap (bs ++ f x) st := by
    intro bs i x hx
    rw [emits_append]
    cases hu : emits cap bs st with
    | none => rfl
    | some u => simpa using key bs i x u hu hx
  have e1 := step [] 0 a (by simp [h])
  have e2 := step (f a) 1 b (by simp [h])
  have e3 := step (f a ++ f b) 2 c (by simp [h])
  have e4 := step (f a ++ f b ++ f c) 3 e (by simp [h])
  simp only [List.nil_append] at e1
  have e0 : emits cap [] st = some st := rfl
  rw [e0] at e1
  simp only [forLoop_succ, forLoop_zero]
  rw [e1, e2, e3, e4, h]
  simp

theorem emit_eq_emits (cap : Nat) (b : Byte) : emit cap b = emits cap [b] := by
  funext st; simp only [emits]; cases emit cap b st <;> rfl

theorem emitRun_eq {cap : Nat} {st : CState}
    (h : st.out.length + (runEnc st.runningLength st.lastSymbol).length ≤ cap) :
    emitRun cap st = some { st with
      out := st.out ++ runEnc st.runningLength st.lastSymbol
      bytesOut := st.bytesOut + (runEnc st.runningLength st.lastSymbol).length } := by
  rw [← emits_eq h]
  unfold emitRun runEnc
  by_cases h0 : st.runningLength = 0
  · simp [h0, rlMin, emits]
  by_cases h1 : st.runningLength = 1
  · simp only [h1, rlMin, charsPerDatum]
    simp only [Nat.zero_lt_one, Nat.one_lt_two, and_self, forLoop_succ, forLoop_zero,
      Option.bind_some]
    have := byteLoop (cap := cap) st.lastSymbol
      (fun b => if b = marker then [marker, marker] else [b]) st rfl
    simp only [forLoop_succ, forLoop_zero, Option.bind_some] at this
    simp only [litEnc, Nat.one_ne_zero, if_false, if_true]
    rw [← this]
    have e : ∀ (c : Byte) (st : CState),
        (if c = marker then (emit cap marker st).bind (emit cap marker) else emit cap c st) =
        emits cap (if c = marker then [marker, marker] else [c]) st := by
      intro c st
      split
      · simp only [emits]
        cases emit cap marker st with
        | none => rfl
        | some u => simp only [Option.bind_some]; cases emit cap marker u <;> rfl
      · rw [emit_eq_emits]
    simp only [e]
  · have hA : ¬(0 < st.runningLength ∧ st.runningLength < rlMin) := by unfold rlMin; omega
    have hB : rlMin ≤ st.runningLength := by unfold rlMin; omega
    rw [if_neg hA, if_pos hB, if_neg h0, if_neg h1]
    rw [emits_append]
    simp only [emits]
    cases ha : emit cap marker st with
    | none => rfl
    | some u =>
      simp only [Option.bind_some]
      have hu := emit_last ha
      cases hb : emit cap rle u with
      | none => rfl
      | some v =>
        have hv := emit_last hb
        simp only [Option.bind_some]
        rw [show v.runningLength = st.runningLength from hv.2.trans hu.2]
        cases hc : emit cap (BitVec.ofNat 8 (st.runningLength % 256)) v with
        | none => rfl
        | some w =>
          have hw := emit_last hc
          simp only [Option.bind_some]
          have := byteLoop (cap := cap) st.lastSymbol (fun b => [b]) w
            (hw.1.trans (hv.1.trans hu.1))
          simp only [emit_eq_emits]
          unfold charsPerDatum
          rw [this]
          simp

/-! ### Decoding -/

/-- The encoding `enc` is decoded as the bytes `bs`, in any context with enough room. -/
def Decodes (enc bs : List Byte) : Prop :=
  ∀ cap rest acc, acc.length + bs.length ≤ cap →
    decLoop cap (enc ++ rest) acc = decLoop cap rest (acc ++ bs)

theorem Decodes.nil : Decodes [] [] := by intro cap rest acc _; simp

theorem Decodes.append {e1 b1 e2 b2 : List Byte} (h1 : Decodes e1 b1) (h2 : Decodes e2 b2) :
    Decodes (e1 ++ e2) (b1 ++ b2) := by
  intro cap rest acc h
  simp only [List.length_append] at h
  rw [List.append_assoc, h1 _ _ _ (by omega), h2 _ _ _ (by simp; omega), List.append_assoc]

theorem decodes_lit (bs : List Byte) : Decodes (litEnc bs) bs := by
  induction bs with
  | nil => exact Decodes.nil
  | cons b bs ih =>
    have h1 : Decodes (if b = marker then [marker, marker] else [b]) [b] := by
      intro cap rest acc h
      simp only [List.length_singleton] at h
      split
      · rename_i hb
        subst hb
        simp only [List.cons_append, List.nil_append]
        rw [decLoop.eq_def]
        simp only [if_true]
        rw [if_pos (by omega)]
      · rename_i hb
        simp only [List.cons_append, List.nil_append]
        rw [decLoop.eq_def]
        simp only [hb, if_false]
        rw [if_pos (by omega)]
    exact Decodes.append h1 ih

theorem replicate_flatten_length (n : Nat) (l : List Byte) :
    ((List.replicate n l).flatten).length = n * l.length := by
  simp

theorem decodes_rle (n : Nat) (hn : n < 256) (d : F32) :
    Decodes ([marker, rle, BitVec.ofNat 8 (n % 256)] ++ datumBytes d)
      ((List.replicate n (datumBytes d)).flatten) := by
  intro cap rest acc h
  rw [replicate_flatten_length, datumBytes_length] at h
  obtain ⟨a, b, c, e, hd⟩ := datumBytes_four d
  rw [hd]
  have ht : (BitVec.ofNat 8 (n % 256)).toNat = n := by simp; omega
  simp only [List.cons_append, List.nil_append]
  rw [decLoop.eq_def]
  simp only [if_true, show ¬ (rle = marker) from by decide, if_false]
  rw [if_pos (by rw [ht]; exact h), ht]

theorem replicate_flatten_eq (n : Nat) (d : F32) :
    (List.replicate n (datumBytes d)).flatten = (List.replicate n d).flatMap datumBytes := by
  rw [List.flatMap_def, List.map_replicate]

theorem decodes_run (n : Nat) (hn : n < 256) (d : F32) :
    Decodes (runEnc n d) ((List.replicate n d).flatMap datumBytes) := by
  unfold runEnc
  split
  · rename_i h; subst h; exact Decodes.nil
  split
  · rename_i h; subst h
    have := decodes_lit (datumBytes d)
    simpa using this
  · rw [← replicate_flatten_eq]; exact decodes_rle n hn d

theorem datums_flatMap (ds : List F32) : datums (ds.flatMap datumBytes) = ds := by
  induction ds with
  | nil => rfl
  | cons d ds ih =>
    obtain ⟨a, b, c, e, hd⟩ := datumBytes_four d
    rw [List.flatMap_cons, hd]
    simp only [List.cons_append, List.nil_append, datums, ih]
    rw [← hd, datumOf_datumBytes]

theorem flatMap_length (ds : List F32) : (ds.flatMap datumBytes).length = 4 * ds.length := by
  induction ds with
  | nil => rfl
  | cons d ds ih => simp only [List.flatMap_cons, List.length_append, ih, datumBytes_length,
      List.length_cons]; omega

/-! ### The compression loop -/

theorem forall2_imp {R S : F32 → F32 → Prop} (h : ∀ a b, R a b → S a b) {l m : List F32}
    (hl : List.Forall₂ R l m) : List.Forall₂ S l m := by
  induction hl with
  | nil => exact .nil
  | cons a _ ih => exact .cons (h _ _ a) ih

theorem forall2_append {R : F32 → F32 → Prop} {l m l' m' : List F32}
    (h : List.Forall₂ R l m) (h' : List.Forall₂ R l' m') : List.Forall₂ R (l ++ l') (m ++ m') := by
  induction h with
  | nil => exact h'
  | cons a _ ih => exact .cons a ih

theorem forall2_length {R : F32 → F32 → Prop} {l m : List F32}
    (h : List.Forall₂ R l m) : l.length = m.length := by
  induction h with
  | nil => rfl
  | cons _ _ ih => simp [ih]

theorem forall2_replicate {l ds : List F32} {n : Nat} {a b : F32} (hab : rel a b)
    (h : List.Forall₂ rel l (ds ++ List.replicate n a)) :
    List.Forall₂ rel l (ds ++ List.replicate n b) := by
  induction ds generalizing l with
  | nil =>
    simp only [List.nil_append] at *
    induction n generalizing l with
    | zero => simpa using h
    | succ n ih =>
      simp only [List.replicate_succ] at *
      cases h with
      | cons hx hr => exact .cons (hx.trans hab) (ih hr)
  | cons d ds ih =>
    simp only [List.cons_append] at *
    cases h with
    | cons hx hr => exact .cons hx (ih hr)

/-- Invariant of `CompressData` before position `k`. -/
structure Inv (data : List F32) (k : Nat) (st : CState) : Prop where
  count : st.bytesOut = st.out.length
  room : st.out.length + 8 * st.runningLength ≤ 8 * k
  short : st.runningLength < rlMax
  last : 0 < st.runningLength → st.lastSymbol ∈ data
  dec : ∃ ds, Decodes st.out (ds.flatMap datumBytes) ∧ (∀ d ∈ ds, d ∈ data) ∧
    List.Forall₂ rel (data.take k) (ds ++ List.replicate st.runningLength st.lastSymbol)

theorem step_inv {data : List F32} {cap k : Nat} {st : CState} (hk : k < data.length)
    (hcap : 8 * data.length ≤ cap) (h : Inv data k st) :
    ∃ st', step cap data k st = some st' ∧ Inv data (k + 1) st' := by
  obtain ⟨hcount, hroom, hshort, hlast, ds, hdec, hmem, hf⟩ := h
  have hin : data[k] ∈ data := List.getElem_mem hk
  have htake : data.take (k + 1) = data.take k ++ [data[k]] := by
    rw [List.take_succ_eq_append_getElem hk]
  unfold step
  rw [if_pos hk, rd_eq_some hk, Option.bind_some]
  by_cases hc : feq data[k] st.lastSymbol = true
  · simp only [hc, if_true, Bool.not_true]
    have hrel : rel st.lastSymbol data[k] := .inr (feq_symm hc)
    by_cases hm : st.runningLength + 1 = rlMax
    · simp only [hm, or_true, if_true]
      have hl := hlast (by unfold rlMax at hm; omega)
      have hlen := runEnc_length_le rlMax st.lastSymbol
      rw [emitRun_eq (by simp only; unfold rlMax at *; omega)]
      refine ⟨_, rfl, ⟨?_, ?_, ?_, ?_, ds ++ List.replicate rlMax st.lastSymbol, ?_, ?_, ?_⟩⟩
      · simp [hcount]
      · simp; unfold rlMax at *; omega
      · simp [rlMax]
      · simp
      · simp only [List.flatMap_append]
        exact hdec.append (decodes_run _ (by decide) _)
      · intro d hd
        rcases List.mem_append.1 hd with h1 | h1
        · exact hmem d h1
        · rw [List.eq_of_mem_replicate h1]; exact hl
      · simp only [if_true, List.replicate_zero, List.append_nil]
        rw [htake, ← hm, List.replicate_succ', ← List.append_assoc]
        exact forall2_append hf (.cons (.inr hc) .nil)
    · simp only [hm, or_false, Bool.false_eq_true, if_false]
      refine ⟨_, rfl, ⟨hcount, ?_, ?_, ?_, ds, hdec, hmem, ?_⟩⟩
      · simp; omega
      · simp; omega
      · intro _; exact hin
      · simp only [List.replicate_succ', ← List.append_assoc]
        rw [htake]
        exact forall2_append (forall2_replicate hrel hf) (.cons (rel.rfl' _) .nil)
  · have hc' : feq data[k] st.lastSymbol = false := by simpa using hc
    simp only [hc', Bool.false_eq_true, if_false, Bool.not_false, true_or, if_true]
    have hlen := runEnc_length_le st.runningLength st.lastSymbol
    rw [emitRun_eq (by omega)]
    refine ⟨_, rfl, ⟨?_, ?_, ?_, ?_, ds ++ List.replicate st.runningLength st.lastSymbol, ?_, ?_, ?_⟩⟩
    · simp [hcount]
    · simp only [List.length_append]
      rw [if_neg (by omega)]; omega
    · simp only []; rw [if_neg (by omega)]; decide
    · intro _; exact hin
    · simp only [List.flatMap_append]
      exact hdec.append (decodes_run _ (by unfold rlMax at hshort; omega) _)
    · intro d hd
      rcases List.mem_append.1 hd with h1 | h1
      · exact hmem d h1
      · obtain ⟨h2, h3⟩ := List.mem_replicate.1 h1
        rw [h3]; exact hlast (by omega)
    · simp only []
      rw [if_neg (by omega), htake]
      exact forall2_append hf (.cons (rel.rfl' _) .nil)

theorem compressData_spec (data : List F32) (cap : Nat) (hcap : 8 * data.length ≤ cap) :
    ∃ st, compressData cap data = some st ∧ st.bytesOut = st.out.length ∧
      st.out.length ≤ 8 * data.length ∧
      ∃ ds, Decodes st.out (ds.flatMap datumBytes) ∧ (∀ d ∈ ds, d ∈ data) ∧
        List.Forall₂ rel data ds := by
  obtain ⟨st, h1, hinv⟩ := forLoop_inv (n := data.length) (f := step cap data)
    (s := { lastSymbol := 0, runningLength := 0, bytesOut := 0, out := [] })
    (Inv data) ⟨rfl, by simp, by decide, by simp, [], Decodes.nil, by simp, by simp⟩
    (fun i s hi hp => step_inv hi hcap hp)
  obtain ⟨hcount, hroom, hshort, hlast, ds, hdec, hmem, hf⟩ := hinv
  unfold compressData
  rw [forLoop_succ, h1, Option.bind_some]
  unfold step
  rw [if_neg (by omega)]
  have hlen := runEnc_length_le st.runningLength st.lastSymbol
  rw [emitRun_eq (by omega)]
  refine ⟨_, rfl, ?_, ?_, ds ++ List.replicate st.runningLength st.lastSymbol, ?_, ?_, ?_⟩
  · simp [hcount]
  · simp; omega
  · simp only [List.flatMap_append]
    exact hdec.append (decodes_run _ (by unfold rlMax at hshort; omega) _)
  · intro d hd
    rcases List.mem_append.1 hd with h1 | h1
    · exact hmem d h1
    · obtain ⟨h2, h3⟩ := List.mem_replicate.1 h1
      rw [h3]; exact hlast (by omega)
  · simpa using hf

theorem Decodes.decLoop {enc bs : List Byte} (h : Decodes enc bs) {cap : Nat}
    (hc : bs.length ≤ cap) : decLoop cap enc [] = .ok bs := by
  have := h cap [] [] (by simpa using hc)
  simpa [Compress.decLoop] using this

end CN24.Compress
