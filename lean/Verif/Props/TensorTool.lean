import Verif.Proof.TensorTool
import Verif.Props.Tensor
import Verif.Props.StreamTools

/-! C79: the interactive tool for tensor files (tools/tensorTool.cpp). -/

namespace CN24.Props
open CN24 CN24.Tensor CN24.Config CN24.StreamTools CN24.TensorTool

/-! ### Opening -/

/-- C79: the tool starts with the tensor whose number is given; with a number beyond the end of the
file, or without a file, it starts with an empty one. -/
theorem C79_open (ts : List (Tensor F32)) (hts : ∀ t ∈ ts, t.WF ∧ 0 < t.elements ∧ t.Fits) (ds : Str)
    (k : Nat) (hk : IsNumber ds k) :
    (∀ t, ts[k]? = some t → TensorTool.start (some (ts.flatMap serialize)) ds = some (loaded t)) ∧
    (ts.length ≤ k → TensorTool.start (some (ts.flatMap serialize)) ds = some ⟨0, 0, 0, 0, []⟩) ∧
    TensorTool.start none ds = some ⟨0, 0, 0, 0, []⟩ := by
  have hnum := atoi_number hk
  have hlt : k ≤ 2147483647 := hk.2.2.2
  obtain ⟨i, hi, hik⟩ : ∃ i, atoi ds = some i ∧ toUInt i = k := by
    cases e : atoi ds with
    | none => rw [e] at hnum; cases hnum
    | some i => rw [e] at hnum; exact ⟨i, rfl, Option.some.inj hnum⟩
  unfold TensorTool.start
  rw [hi]
  simp only [Option.map_some, hik]
  rw [Nat.mod_eq_of_lt (by omega)]
  refine ⟨fun t ht => ?_, fun hl => ?_, ?_⟩
  · rw [seek_at ts hts k _ _ t [] ⟨rfl, rfl, by simp [openIn], by simp [openIn]⟩ ht]
    rfl
  · rw [seek_beyond ts hts k _ _ ⟨rfl, rfl, by simp [openIn], by simp [openIn]⟩ hl]
  · rw [seek_failed _ _ _ rfl (.inl rfl)]

/-! ### Commands -/

/-- The commands of the tool, apart from quitting. -/
inductive EditCommand where
  | size | help | transpose
  | reshape (width height maps samples : Nat)
  | patches (sample : Option Nat) (width height : Nat)
  | write | bin
  | other (word : Str)

/-- What the user types. -/
def EditCommand.words : EditCommand → List Str
  | .size => ["size".toList]
  | .help => ["help".toList]
  | .transpose => ["transpose".toList]
  | .reshape w h m s => ["reshape".toList, digitsOf w, digitsOf h, digitsOf m, digitsOf s]
  | .patches none w h => ["extractpatches".toList, digitsOf w, digitsOf h]
  | .patches (some s) w h => ["extractpatches".toList, digitsOf s, digitsOf w, digitsOf h]
  | .write => ["write".toList]
  | .bin => ["bin".toList]
  | .other w => [w]

/-- The words with a meaning. -/
def editWords : List Str :=
  ["q", "quit", "help", "size", "transpose", "reshape", "extractpatches", "write", "bin"].map String.toList

/-- `u` is `t` with rows and columns exchanged. -/
def Transposed (t u : Tensor F32) : Prop :=
  u.Valid ∧ u.width = t.height ∧ u.height = t.width ∧ u.samples = t.samples ∧ u.maps = t.maps ∧
    ∀ x y m s, x < t.width → y < t.height → m < t.maps → s < t.samples → u.get y x m s = t.get x y m s

/-- The bytes of a binary file: for three maps pixel by pixel, otherwise in the order of the
elements. -/
def BinBytes (byteOf : F32 → Option Byte) (t : Tensor F32) (bs : List Byte) : Prop :=
  bs.length = t.elements ∧ ∀ x y m s, x < t.width → y < t.height → m < t.maps → s < t.samples →
    ∃ v, t.get x y m s = some v ∧ (byteOf v).isSome ∧
      bs[if t.maps = 3 then ((s * t.height + y) * t.width + x) * 3 + m
        else ((s * t.maps + m) * t.height + y) * t.width + x]? = byteOf v

/-- What a command does to the tensor and the files. -/
inductive Edits (env : Env) (file : Str) : EditCommand → Tensor F32 × Disk → Tensor F32 × Disk → Prop
  | size {t d} : Edits env file .size (t, d) (t, d)
  | help {t d} : Edits env file .help (t, d) (t, d)
  | other {w t d} : w ∉ editWords → Edits env file (.other w) (t, d) (t, d)
  | transpose {t u d} : Transposed t u → Edits env file .transpose (t, d) (u, d)
  /-- a new shape with the same number of elements keeps the values in their order -/
  | reshape {w h m s t d} : w < 2 ^ 32 → h < 2 ^ 32 → m < 2 ^ 32 → s < 2 ^ 32 → 0 < t.elements →
      t.elements < 2 ^ 64 → s * m * w * h = t.elements → Edits env file (.reshape w h m s) (t, d) (⟨s, w, h, m, t.data⟩, d)
  /-- any other one changes nothing -/
  | refused {w h m s t d} : w < 2 ^ 32 → h < 2 ^ 32 → m < 2 ^ 32 → s < 2 ^ 32 → s * m * w * h < 2 ^ 64 →
      t.elements = 0 ∨ s * m * w * h ≠ t.elements → Edits env file (.reshape w h m s) (t, d) (t, d)
  | patches {sample w h t u d} : w < 2 ^ 32 → h < 2 ^ 32 → (∀ s ∈ sample, s < 2 ^ 32) →
      (sample = none ↔ t.samples = 1) → u.Valid →
      env.patches w h (sample.getD 0) (loaded t) = .done (loaded u) →
      Edits env file (.patches sample w h) (t, d) (u, d)
  /-- the file holds this tensor and nothing else -/
  | write {t d} : env.writable file = true → Edits env file .write (t, d) (t, d.set file t.serialize)
  | bin {t d bs} : env.writable "binoutput.data".toList = true → BinBytes env.byteOf t bs →
      Edits env file .bin (t, d) (t, d.set "binoutput.data".toList bs)

/-- A sequence of commands. -/
inductive EditsAll (env : Env) (file : Str) : List EditCommand → Tensor F32 × Disk → Tensor F32 × Disk → Prop
  | nil {p} : EditsAll env file [] p p
  | cons {c cs p q r} : Edits env file c p q → EditsAll env file cs q r → EditsAll env file (c :: cs) p r

theorem bin_bytes {byteOf : F32 → Option Byte} {t : Tensor F32} {bs : List Byte}
    (h : BinBytes byteOf t bs) : serializeBytes byteOf t = some bs := by
  obtain ⟨hl, hb⟩ := h
  unfold serializeBytes
  split
  · next h3 =>
    have e : ((List.range t.samples).flatMap fun s => (List.range (t.width * t.height)).flatMap fun i =>
        (List.range 3).map fun c => t.width * t.height * t.maps * s + t.width * t.height * c + i) =
        (List.range (t.samples * (t.width * t.height * 3))).map fun j =>
          t.width * t.height * t.maps * (j / (t.width * t.height * 3)) +
            t.width * t.height * (j % (t.width * t.height * 3) % 3) + j % (t.width * t.height * 3) / 3 := by
      rcases Nat.eq_zero_or_pos (t.width * t.height) with h0 | h0
      · simp [h0]
      · rw [← flatMap_range_map (t.width * t.height * 3) (by omega) (fun s j =>
          t.width * t.height * t.maps * s + t.width * t.height * (j % 3) + j / 3)]
        congr 1
        funext s
        rw [← flatMap_range_map 3 (by omega) (fun i c =>
          t.width * t.height * t.maps * s + t.width * t.height * c + i)]
    rw [e]
    have hn : t.elements = t.samples * (t.width * t.height * 3) := by
      unfold elements
      rw [h3, Nat.mul_assoc, Nat.mul_assoc, Nat.mul_comm 3]
    apply mapM_of
    · simp [hl, hn]
    · intro j a ha
      have hj : j < t.samples * (t.width * t.height * 3) := by
        have := (List.getElem?_eq_some_iff.1 ha).1
        simpa using this
      rw [List.getElem?_map, List.getElem?_range hj, Option.map_some] at ha
      obtain ⟨x, y, m, s, hx, hy, hm, hs, rfl⟩ := pixel_order t.samples t.height t.width 3
        (j := j) (by rw [Nat.mul_assoc]; exact hj)
      obtain ⟨v, hv, _, hbv⟩ := hb x y m s hx hy (by omega) hs
      rw [if_pos h3] at hbv
      rw [hbv]
      have hoff : a = t.offset x y m s := by
        rw [← Option.some.inj ha]
        have hxy : y * t.width + x < t.width * t.height := by
          have : (y + 1) * t.width ≤ t.height * t.width := Nat.mul_le_mul_right _ (by omega)
          rw [Nat.succ_mul, Nat.mul_comm t.height] at this
          omega
        have e1 : ((s * t.height + y) * t.width + x) * 3 + m =
            s * (t.width * t.height * 3) + ((y * t.width + x) * 3 + m) := by
          rw [Nat.add_mul (s * t.height), Nat.mul_assoc s, Nat.mul_comm t.height, Nat.add_assoc,
            Nat.add_mul (s * _), Nat.mul_assoc s, Nat.add_assoc]
        obtain ⟨d1, d2⟩ := div_horner (a := s) (b := t.width * t.height * 3)
          (c := (y * t.width + x) * 3 + m) (by omega)
        obtain ⟨d3, d4⟩ := div_horner (a := y * t.width + x) (b := 3) (c := m) hm
        rw [e1, d1, d2, d3, d4]
        unfold offset
        have a1 : t.width * t.height * t.maps * s = s * t.maps * t.width * t.height := by ac_rfl
        have a2 : t.width * t.height * m = m * t.width * t.height := by ac_rfl
        omega
      subst hoff
      have hv' : rd t.data (t.offset x y m s) = some v := hv
      rw [hv', Option.bind_some]
  · next h3 =>
    apply mapM_of
    · simp [hl]
    · intro j a ha
      have hj : j < t.elements := by
        have := (List.getElem?_eq_some_iff.1 ha).1
        simpa using this
      rw [List.getElem?_range hj] at ha
      obtain rfl := Option.some.inj ha
      obtain ⟨x, y, m, s, ⟨hx, hy, hm, hs⟩, rfl⟩ := offset_surj t hj
      obtain ⟨v, hv, _, hbv⟩ := hb x y m s hx hy hm hs
      rw [if_neg h3, ← offset_horner] at hbv
      have hv' : rd t.data (t.offset x y m s) = some v := hv
      rw [hbv, hv', Option.bind_some]

theorem edits_valid {env : Env} {file : Str} {c : EditCommand} {p q : Tensor F32 × Disk}
    (h : Edits env file c p q) (hv : p.1.Valid) : q.1.Valid := by
  cases h with
  | transpose h => exact h.1
  | reshape _ _ _ _ h1 _ h2 => exact reshape_valid hv ⟨h1, h2⟩
  | patches _ _ _ _ h _ => exact h
  | _ => exact hv

theorem transposed_eq {t u : Tensor F32} (hv : t.Valid) (h : Transposed t u) : t.transpose = some u := by
  obtain ⟨h1, h2, h3, h4, h5, h6⟩ := h
  obtain ⟨v, b1, b2, b3, b4, b5, b6, b7⟩ := transpose_spec hv
  rw [b1]
  congr 1
  refine ext_get b2.1 h1.1 ⟨by omega, by omega, by omega, by omega⟩ ?_
  rintro x y m s ⟨i1, i2, i3, i4⟩
  rw [b7 y x m s ⟨by omega, by omega, by omega, by omega⟩,
    h6 y x m s (by omega) (by omega) (by omega) (by omega)]

theorem parse_word {env : Env} {file entry : Str} {t : Tensor (Option F32)} {d : Disk} {k k' : Keys}
    (h : k.word = (entry, k')) (h1 : entry ≠ "q".toList) (h2 : entry ≠ "quit".toList) :
    parseCommand env file ⟨t, d, k⟩ = (act env file entry ⟨t, d, k'⟩).bind fun st => .done (true, st) := by
  unfold parseCommand
  simp only [h]
  rw [if_neg (by rintro (h | h); exacts [h1 h, h2 h])]

section
variable (env : Env) (file : Str) (st : State)

theorem act_help : act env file "help".toList st = .done st := by
  unfold act
  rw [if_pos rfl]

theorem act_size : act env file "size".toList st = .done st := by
  unfold act
  rw [if_neg (by decide), if_pos rfl]

theorem act_transpose : act env file "transpose".toList st =
    (Outcome.ofOption st.tensor.transpose).bind fun t => .done { st with tensor := t } := by
  unfold act
  rw [if_neg (by decide), if_neg (by decide), if_pos rfl]

theorem act_reshape : act env file "reshape".toList st = doReshape st := by
  unfold act
  rw [if_neg (by decide), if_neg (by decide), if_neg (by decide), if_pos rfl]

theorem act_patches : act env file "extractpatches".toList st = doPatches env st := by
  unfold act
  rw [if_neg (by decide), if_neg (by decide), if_neg (by decide), if_neg (by decide), if_pos rfl]

theorem act_write : act env file "write".toList st = doWrite env file st := by
  unfold act
  rw [if_neg (by decide), if_neg (by decide), if_neg (by decide), if_neg (by decide),
    if_neg (by decide), if_pos rfl]

theorem act_bin : act env file "bin".toList st = doBin env st := by
  unfold act
  rw [if_neg (by decide), if_neg (by decide), if_neg (by decide), if_neg (by decide),
    if_neg (by decide), if_neg (by decide), if_pos rfl]

theorem act_other {w : Str} (h : w ∉ editWords) : act env file w st = .done st := by
  simp only [editWords, List.map_cons, List.map_nil, List.mem_cons, List.not_mem_nil, or_false,
    not_or] at h
  obtain ⟨a1, a2, a3, a4, a5, a6, a7, a8, a9⟩ := h
  unfold act
  rw [if_neg a3, if_neg a4, if_neg a5, if_neg a6, if_neg a7, if_neg a8, if_neg a9]

end

theorem doReshape_numbers {t : Tensor (Option F32)} {d : Disk} {k k1 k2 k3 k4 : Keys} {w h m s : Nat}
    (e1 : k.number = (some w, k1)) (e2 : k1.number = (some h, k2)) (e3 : k2.number = (some m, k3))
    (e4 : k3.number = (some s, k4)) : doReshape ⟨t, d, k⟩ = .done ⟨TensorTool.reshape t s w h m, d, k4⟩ := by
  unfold doReshape
  simp only [e1, e2, e3, e4, TensorTool.stored, Outcome.bind_done]

theorem doPatches_one {env : Env} {t : Tensor (Option F32)} {d : Disk} {k k1 k2 : Keys} {w h : Nat}
    (h1 : t.samples = 1) (e1 : k.number = (some w, k1)) (e2 : k1.number = (some h, k2)) :
    doPatches env ⟨t, d, k⟩ = (env.patches w h 0 t).bind fun t => .done ⟨t, d, k2⟩ := by
  unfold doPatches
  simp only [h1, ne_eq, not_true_eq_false, if_false, e1, e2, TensorTool.stored, Outcome.bind_done]

theorem doPatches_some {env : Env} {t : Tensor (Option F32)} {d : Disk} {k k1 k2 k3 : Keys} {s w h : Nat}
    (h1 : t.samples ≠ 1) (e0 : k.number = (some s, k1)) (e1 : k1.number = (some w, k2))
    (e2 : k2.number = (some h, k3)) :
    doPatches env ⟨t, d, k⟩ = (env.patches w h s t).bind fun t => .done ⟨t, d, k3⟩ := by
  unfold doPatches
  simp only [h1, ne_eq, not_false_eq_true, if_true, e0, e1, e2, TensorTool.stored, Outcome.bind_done]

/-- One command. -/
theorem command_step {env : Env} {file : Str} {c : EditCommand} {p q : Tensor F32 × Disk}
    (h : Edits env file c p q) (hv : p.1.Valid) {ws : List Str} {s : Str}
    (hs : Typed (c.words ++ ws) s) :
    ∃ rest, parseCommand env file ⟨loaded p.1, p.2, ⟨s, false⟩⟩ =
      .done (true, ⟨loaded q.1, q.2, ⟨rest, false⟩⟩) ∧ Typed ws rest := by
  cases h with
  | size =>
    obtain ⟨r, e, hr⟩ := word_typed hs
    exact ⟨r, by rw [parse_word e (by decide) (by decide), act_size]; rfl, hr⟩
  | help =>
    obtain ⟨r, e, hr⟩ := word_typed hs
    exact ⟨r, by rw [parse_word e (by decide) (by decide), act_help]; rfl, hr⟩
  | @other w t d hw =>
    obtain ⟨r, e, hr⟩ := word_typed hs
    refine ⟨r, ?_, hr⟩
    rw [parse_word e (by rintro rfl; exact hw (by decide)) (by rintro rfl; exact hw (by decide)),
      act_other _ _ _ hw]
    rfl
  | @transpose t u d ht =>
    obtain ⟨r, e, hr⟩ := word_typed hs
    refine ⟨r, ?_, hr⟩
    have := transpose_known hv (transposed_eq hv ht)
    rw [parse_word e (by decide) (by decide), act_transpose]
    change (Outcome.bind (Outcome.ofOption t.known.transpose) _).bind _ = _
    rw [this]
    rfl
  | @reshape w h m s' t d h1 h2 h3 h4 h5 hb h6 =>
    obtain ⟨r0, e0, hr0⟩ := word_typed hs
    obtain ⟨r1, e1, hr1⟩ := number_typed h1 hr0
    obtain ⟨r2, e2, hr2⟩ := number_typed h2 hr1
    obtain ⟨r3, e3, hr3⟩ := number_typed h3 hr2
    obtain ⟨r4, e4, hr4⟩ := number_typed h4 hr3
    refine ⟨r4, ?_, hr4⟩
    rw [parse_word e0 (by decide) (by decide), act_reshape, doReshape_numbers e1 e2 e3 e4]
    have := reshape_known hv (s := s') (w := w) (h' := h) (m := m) (by rw [h6]; exact hb)
    rw [if_pos ⟨h5, h6⟩] at this
    change Outcome.done (true, (⟨TensorTool.reshape t.known s' w h m, d, _⟩ : State)) = _
    rw [this]
    rfl
  | @refused w h m s' t d h1 h2 h3 h4 h5 h6 =>
    obtain ⟨r0, e0, hr0⟩ := word_typed hs
    obtain ⟨r1, e1, hr1⟩ := number_typed h1 hr0
    obtain ⟨r2, e2, hr2⟩ := number_typed h2 hr1
    obtain ⟨r3, e3, hr3⟩ := number_typed h3 hr2
    obtain ⟨r4, e4, hr4⟩ := number_typed h4 hr3
    refine ⟨r4, ?_, hr4⟩
    rw [parse_word e0 (by decide) (by decide), act_reshape, doReshape_numbers e1 e2 e3 e4]
    have := reshape_known hv (s := s') (w := w) (h' := h) (m := m) h5
    rw [if_neg (by rintro ⟨a, b⟩; rcases h6 with h6 | h6; exacts [absurd h6 (Nat.ne_of_gt a), h6 b])] at this
    change Outcome.done (true, (⟨TensorTool.reshape t.known s' w h m, d, _⟩ : State)) = _
    rw [this]
    rfl
  | @patches sample w h t u d h1 h2 h3 h4 h5 h6 =>
    cases sample with
    | none =>
      obtain ⟨r0, e0, hr0⟩ := word_typed hs
      obtain ⟨r1, e1, hr1⟩ := number_typed h1 hr0
      obtain ⟨r2, e2, hr2⟩ := number_typed h2 hr1
      refine ⟨r2, ?_, hr2⟩
      have h1' : (loaded t).samples = 1 := h4.1 rfl
      have h6' : env.patches w h 0 (loaded t) = .done (loaded u) := h6
      rw [parse_word e0 (by decide) (by decide), act_patches, doPatches_one h1' e1 e2, h6']
      rfl
    | some n =>
      obtain ⟨r0, e0, hr0⟩ := word_typed hs
      obtain ⟨r1, e1, hr1⟩ := number_typed (h3 n rfl) hr0
      obtain ⟨r2, e2, hr2⟩ := number_typed h1 hr1
      obtain ⟨r3, e3, hr3⟩ := number_typed h2 hr2
      refine ⟨r3, ?_, hr3⟩
      have h1' : (loaded t).samples ≠ 1 := fun e => by cases h4.2 e
      have h6' : env.patches w h n (loaded t) = .done (loaded u) := h6
      rw [parse_word e0 (by decide) (by decide), act_patches, doPatches_some h1' e1 e2 e3, h6']
      rfl
  | @write t d hw =>
    obtain ⟨r, e, hr⟩ := word_typed hs
    refine ⟨r, ?_, hr⟩
    rw [parse_word e (by decide) (by decide), act_write]
    unfold doWrite
    rw [if_pos hw]
    have : determined (loaded t) = some t := determined_known t
    simp only [this]
    rfl
  | @bin t d bs hw hb =>
    obtain ⟨r, e, hr⟩ := word_typed hs
    refine ⟨r, ?_, hr⟩
    rw [parse_word e (by decide) (by decide), act_bin]
    unfold doBin
    rw [if_pos (show env.writable binFile = true from hw)]
    have : determined (loaded t) = some t := determined_known t
    simp only [this, Outcome.ofOption, Outcome.bind_done, bin_bytes hb]
    rfl

theorem quit_step {env : Env} {file : Str} {t : Tensor (Option F32)} {d : Disk} {q : Str}
    (hq : q = "q".toList ∨ q = "quit".toList) {ws : List Str} {s : Str} (hs : Typed (q :: ws) s) :
    ∃ rest, parseCommand env file ⟨t, d, ⟨s, false⟩⟩ = .done (false, ⟨t, d, ⟨rest, false⟩⟩) ∧
      Typed ws rest := by
  obtain ⟨r, e, hr⟩ := word_typed hs
  refine ⟨r, ?_, hr⟩
  unfold parseCommand
  simp only [e]
  rw [if_pos hq]

/-- C79: any sequence of commands, typed with any white space between the words and ended by `q` or
`quit`, does to the tensor and the files what the commands say, in order, and ends the tool; what is
typed afterwards is not read. -/
theorem C79_commands (env : Env) (file : Str) (cs : List EditCommand) (t u : Tensor F32) (d e : Disk)
    (hv : t.Valid) (h : EditsAll env file cs (t, d) (u, e)) (q : Str)
    (hq : q = "q".toList ∨ q = "quit".toList) (ws : List Str) (s : Str)
    (hs : Typed (cs.flatMap EditCommand.words ++ q :: ws) s) :
    ∃ rest, rounds env file (cs.length + 1) ⟨loaded t, d, ⟨s, false⟩⟩ =
      .done (false, ⟨loaded u, e, ⟨rest, false⟩⟩) ∧ Typed ws rest ∧ u.Valid := by
  induction cs generalizing t d s with
  | nil =>
    cases h
    obtain ⟨rest, h1, h2⟩ := quit_step (env := env) (file := file) (t := loaded u) (d := e) hq hs
    exact ⟨rest, by rw [rounds, h1]; rfl, h2, hv⟩
  | cons c cs ih =>
    cases h with
    | @cons _ _ _ p _ h1 h2 =>
      rw [List.flatMap_cons, List.append_assoc] at hs
      obtain ⟨r, e1, hr⟩ := command_step h1 hv hs
      obtain ⟨rest, e2, h3⟩ := ih p.1 p.2 (edits_valid h1 hv) h2 r hr
      refine ⟨rest, ?_, h3⟩
      rw [List.length_cons, rounds, e1]
      exact e2

/-- C79: `write` and reading the file again gives the tensor back, bit for bit.  The full property
asks for the other tensors of the file to stay: see `C79_write_loses`. -/
theorem C79_write_back_partial (env : Env) (file : Str) (mmap : Bool) (t u : Tensor F32) (d e : Disk)
    (h : Edits env file .write (t, d) (u, e)) (hv : t.WF ∧ 0 < t.elements ∧ t.Fits) :
    u = t ∧ TensorTool.start (e file) "0".toList = some (loaded t) ∧
      (e file).bind (floatLoad mmap) = some [loaded t] ∧ ∀ f, f ≠ file → e f = d f := by
  cases h with
  | write hw =>
    have he : d.set file t.serialize file = some t.serialize := by simp [Disk.set]
    refine ⟨rfl, ?_, ?_, ?_⟩
    · have := (C79_open [t] (by simpa using hv) "0".toList 0 ⟨by decide, by decide, by decide, by decide⟩).1 t rfl
      rw [he]
      simpa using this
    · have := C03_load_file mmap [t] (by simpa using hv)
      rw [he]
      simpa [loaded] using this
    · intro f hf
      simp [Disk.set, hf]

/-- C79, violated: writing one of several tensors back removes all others from the file.  After any
commands the file holds exactly the edited tensor. -/
theorem C79_write_loses (env : Env) (file : Str) (mmap : Bool) (ts : List (Tensor F32))
    (hts : ∀ t ∈ ts, t.WF ∧ 0 < t.elements ∧ t.Fits) (k : Nat) (ds : Str) (hk : IsNumber ds k)
    (t u : Tensor F32) (ht : ts[k]? = some t) (d e : Disk) (hd : d file = some (ts.flatMap serialize))
    (cs : List EditCommand) (h : EditsAll env file cs (t, d) (u, e)) (hw : env.writable file = true)
    (hu : u.Fits ∧ 0 < u.elements) (s : Str)
    (hs : Typed (cs.flatMap EditCommand.words ++ ["write".toList, "q".toList]) s) :
    ∃ st n e', TensorTool.start (d file) ds = some st ∧
      rounds env file n ⟨st, d, ⟨s, false⟩⟩ = .done (false, e') ∧
      (d file).bind (floatLoad mmap) = some (ts.map loaded) ∧
      (e'.disk file).bind (floatLoad mmap) = some [loaded u] := by
  obtain ⟨h1, h2, h3⟩ := hts t (List.mem_of_getElem? ht)
  have hv : t.Valid := ⟨h1, fun h0 => by omega⟩
  have hall : EditsAll env file (cs ++ [.write]) (t, d) (u, e.set file u.serialize) := by
    clear hs hv h1 h2 h3 ht hd
    generalize hp : (t, d) = p at h ⊢
    generalize hr : (u, e) = r at h
    clear hp
    induction h with
    | nil => subst hr; exact .cons (.write hw) .nil
    | cons a _ ih => exact .cons a (ih hr)
  obtain ⟨rest, g1, g2, g3⟩ := C79_commands env file _ t u d _ hv hall "q".toList (.inl rfl) [] s
    (by simpa [List.flatMap_append, EditCommand.words] using hs)
  refine ⟨loaded t, _, _, ?_, g1, ?_, ?_⟩
  · rw [hd]; exact (C79_open ts hts ds k hk).1 t ht
  · rw [hd]; exact C03_load_file mmap ts hts
  · have := C03_load_file mmap [u] (by simpa using ⟨g3.1, hu.2, hu.1⟩)
    simpa [Disk.set, loaded] using this

theorem rounds_failed (env : Env) (file : Str) (t : Tensor (Option F32)) (d : Disk) (c : Str) :
    ∀ n, rounds env file n ⟨t, d, ⟨c, true⟩⟩ = .done (true, ⟨t, d, ⟨c, true⟩⟩)
  | 0 => rfl
  | n + 1 => by
    have e : (⟨c, true⟩ : Keys).word = ([], ⟨c, true⟩) := rfl
    rw [rounds, parse_word e (by decide) (by decide), act_other _ _ _ (by decide)]
    exact rounds_failed env file t d c n

/-- C79, violated: if the input ends without `q`, the tool never does; it repeats the complaint about
an unknown command for ever. -/
theorem C79_end_of_input_loops (env : Env) (file : Str) (cs : List EditCommand) (t u : Tensor F32)
    (d e : Disk) (hv : t.Valid) (h : EditsAll env file cs (t, d) (u, e)) (s : Str)
    (hs : Typed (cs.flatMap EditCommand.words) s) (n : Nat) (hn : cs.length < n) :
    rounds env file n ⟨loaded t, d, ⟨s, false⟩⟩ = .done (true, ⟨loaded u, e, ⟨[], true⟩⟩) := by
  induction cs generalizing t d s n with
  | nil =>
    cases h
    obtain ⟨n, rfl⟩ : ∃ m, n = m + 1 := ⟨n - 1, by omega⟩
    rw [rounds, parse_word (word_nothing hs) (by decide) (by decide), act_other _ _ _ (by decide)]
    exact rounds_failed env file _ _ _ n
  | cons c cs ih =>
    cases h with
    | @cons _ _ _ p _ h1 h2 =>
      rw [List.flatMap_cons] at hs
      obtain ⟨n, rfl⟩ : ∃ m, n = m + 1 := ⟨n - 1, by simp at hn; omega⟩
      obtain ⟨r, e1, hr⟩ := command_step h1 hv hs
      rw [rounds, e1]
      exact ih p.1 p.2 (edits_valid h1 hv) h2 r hr n (by simpa using hn)

/-- C79, violated: a word where `reshape` asks for a width makes the tool use variables it has never
stored to. -/
theorem C79_reshape_word (env : Env) (file : Str) (t : Tensor (Option F32)) (d : Disk) (w : Str)
    (ws : List Str) (s : Str) (hw : ∀ c, w.head? = some c → c.isDigit = false ∧ c ≠ '-' ∧ c ≠ '+')
    (hs : Typed ("reshape".toList :: w :: ws) s) :
    parseCommand env file ⟨t, d, ⟨s, false⟩⟩ = .undefined := by
  obtain ⟨r, e, hr⟩ := word_typed hs
  rw [parse_word e (by decide) (by decide), act_reshape]
  obtain ⟨rest, e1, h1, h2, h3, h4⟩ := typed_skip hr
  obtain ⟨a, w, rfl⟩ : ∃ a l, w = a :: l := by
    cases w with
    | nil => exact absurd rfl h1
    | cons a l => exact ⟨a, l, rfl⟩
  obtain ⟨b1, b2, b3⟩ := hw a rfl
  have hn : (⟨r, false⟩ : Keys).number = (some 0, ⟨a :: w ++ rest, true⟩) := by
    unfold Keys.number
    simp only [Bool.false_eq_true, if_false, e1]
    rw [if_neg (by simp)]
    have hsg : sign (a :: w ++ rest) = (false, a :: w ++ rest) := by
      unfold sign
      simp [b2, b3]
    rw [hsg]
    simp [b1]
  have hf : ∀ c : Str, (⟨c, true⟩ : Keys).number = (none, ⟨c, true⟩) := fun _ => rfl
  unfold doReshape
  simp only [hn, hf, TensorTool.stored]
  rfl

/-- C79, violated: with a number beyond the end of the file (or a negative one) the tool starts
with an empty tensor without saying so, and `write` then replaces all tensors of the file by it. -/
theorem C79_beyond_erases (env : Env) (file : Str) (mmap : Bool) (ts : List (Tensor F32))
    (hts : ∀ t ∈ ts, t.WF ∧ 0 < t.elements ∧ t.Fits) (k : Nat) (ds : Str)
    (hk : (IsNumber ds k ∧ ts.length ≤ k) ∨ ds = "-1".toList) (d : Disk)
    (hd : d file = some (ts.flatMap serialize)) (hw : env.writable file = true) :
    ∃ st e, TensorTool.start (d file) ds = some st ∧
      rounds env file 2 ⟨st, d, ⟨"write q".toList, false⟩⟩ = .done (false, e) ∧
      (e.disk file).bind (floatLoad mmap) = some [] := by
  have hst : TensorTool.start (d file) ds = some (loaded ⟨0, 0, 0, 0, []⟩) := by
    rcases hk with ⟨h1, h2⟩ | rfl
    · rw [hd]; exact (C79_open ts hts ds k h1).2.1 h2
    · rw [hd]; rfl
  have hall : EditsAll env file [.write] ((⟨0, 0, 0, 0, []⟩ : Tensor F32), d) (⟨0, 0, 0, 0, []⟩, _) :=
    .cons (.write hw) .nil
  have htyped : Typed (["write".toList, "q".toList]) "write q".toList :=
    .word (gap := []) (w := "write".toList) (rest := " q".toList) (by decide) (by decide) (by decide)
      (by decide) (.word (gap := " ".toList) (w := "q".toList) (rest := []) (by decide) (by decide)
        (by decide) (by decide) (.nothing (by decide)))
  obtain ⟨rest, g1, _, _⟩ := C79_commands env file [.write] _ _ d _ (by decide) hall "q".toList (.inl rfl) []
    _ htyped
  refine ⟨_, _, hst, g1, ?_⟩
  have : floatLoad mmap (serialize ⟨0, 0, 0, 0, []⟩) = some [] := by cases mmap <;> decide +kernel
  simpa [Disk.set] using this

/-- C79, violated: `reshape` multiplies the sizes modulo 2^64, so a tensor of one value can be given a
size of 36 billion billion pixels; almost every access to it is then outside its memory. -/
theorem C79_reshape_wraps (env : Env) (file : Str) (d : Disk) (v : F32) :
    ∃ e, parseCommand env file
        ⟨loaded ⟨1, 1, 1, 1, [v]⟩, d, ⟨"reshape 4323 1119412321 7623851 1".toList, false⟩⟩ = .done (true, e) ∧
      e.tensor = ⟨1, 4323, 1119412321, 7623851, [some v]⟩ ∧ e.tensor.get 1 0 0 0 = none := by
  refine ⟨⟨⟨1, 4323, 1119412321, 7623851, [some v]⟩, d, ⟨[], false⟩⟩, ?_, rfl, by rfl⟩
  have e0 : (⟨"reshape 4323 1119412321 7623851 1".toList, false⟩ : Keys).word =
      ("reshape".toList, ⟨" 4323 1119412321 7623851 1".toList, false⟩) := by decide +kernel
  rw [parse_word e0 (by decide) (by decide), act_reshape,
    doReshape_numbers (k1 := ⟨" 1119412321 7623851 1".toList, false⟩) (k2 := ⟨" 7623851 1".toList, false⟩)
      (k3 := ⟨" 1".toList, false⟩) (k4 := ⟨[], false⟩) (w := 4323) (h := 1119412321) (m := 7623851) (s := 1)
      (by decide +kernel) (by decide +kernel) (by decide +kernel) (by decide +kernel)]
  rfl

/-- C79, violated: a negative size is read as a number close to 2^32, and with other sizes accepted for a
tensor of one element. -/
theorem C79_reshape_negative (env : Env) (file : Str) (d : Disk) (v : F32) :
    ∃ e, parseCommand env file
        ⟨loaded ⟨1, 1, 1, 1, [v]⟩, d, ⟨"reshape -1 -1 3 2863311531".toList, false⟩⟩ = .done (true, e) ∧
      e.tensor = ⟨2863311531, 4294967295, 4294967295, 3, [some v]⟩ := by
  refine ⟨⟨⟨2863311531, 4294967295, 4294967295, 3, [some v]⟩, d, ⟨[], false⟩⟩, ?_, rfl⟩
  have e0 : (⟨"reshape -1 -1 3 2863311531".toList, false⟩ : Keys).word =
      ("reshape".toList, ⟨" -1 -1 3 2863311531".toList, false⟩) := by decide +kernel
  rw [parse_word e0 (by decide) (by decide), act_reshape,
    doReshape_numbers (k1 := ⟨" -1 3 2863311531".toList, false⟩) (k2 := ⟨" 3 2863311531".toList, false⟩)
      (k3 := ⟨" 2863311531".toList, false⟩) (k4 := ⟨[], false⟩) (w := 4294967295) (h := 4294967295) (m := 3)
      (s := 2863311531)
      (by decide +kernel) (by decide +kernel) (by decide +kernel) (by decide +kernel)]
  rfl

/-- C79, violated: `write` to a file that cannot be opened changes nothing and does not say so. -/
theorem C79_write_refused (env : Env) (file : Str) (st : State) (h : env.writable file = false) :
    act env file "write".toList st = .done st := by
  rw [act_write]
  unfold doWrite
  rw [if_neg (by simp [h])]

/-- C79, violated: of a tensor whose values are cut off, the missing ones are shown as those of the
tensor before it. -/
theorem C79_truncated_shows_previous :
    TensorTool.start (some (([⟨1, 2, 1, 1, [1#32, 2#32]⟩, ⟨1, 2, 1, 1, [3#32, 4#32]⟩].flatMap serialize).take 76))
      "1".toList = some ⟨1, 2, 1, 1, [some 3#32, some 2#32]⟩ := by
  decide +kernel

/-- C79: every tensor has a transposed one, and the tool shows the old one again after `transpose`
twice. -/
theorem C79_transpose_twice (env : Env) (file : Str) (t : Tensor F32) (hv : t.Valid) (d : Disk) :
    (∃ u, Transposed t u) ∧ ∀ q, EditsAll env file [.transpose, .transpose] (t, d) q → q = (t, d) := by
  constructor
  · obtain ⟨u, _, h2, h3, h4, h5, h6, h7⟩ := C09_transpose_moves t hv
    exact ⟨u, h2, h3, h4, h5, h6, h7⟩
  · intro q h
    cases h with
    | cons h1 h2 =>
      cases h2 with
      | cons h2 h3 =>
        cases h3
        cases h1 with
        | transpose a =>
          cases h2 with
          | transpose b =>
            have e := C09_transpose_involution t hv
            rw [transposed_eq hv a, Option.bind_some, transposed_eq a.1 b] at e
            rw [Option.some.inj e]

/-- Non-vacuity: commands on a tensor of 1 x 1 pixel and three maps. -/
example (d : Disk) : EditsAll ⟨fun _ _ _ _ => .undefined, fun v => some (v.extractLsb' 0 8), fun _ => true⟩
    "f".toList [.bin, .reshape 3 1 1 1, .other "foo".toList, .write]
    (⟨1, 1, 1, 3, [1#32, 2#32, 3#32]⟩, d)
    (⟨1, 3, 1, 1, [1#32, 2#32, 3#32]⟩, (d.set binFile [1#8, 2#8, 3#8]).set "f".toList
      (serialize ⟨1, 3, 1, 1, [1#32, 2#32, 3#32]⟩)) := by
  refine .cons (.bin rfl ⟨rfl, ?_⟩) (.cons (.reshape (by decide) (by decide) (by decide) (by decide)
    (by decide) (by decide) (by decide)) (.cons (.other (by decide)) (.cons (.write rfl) .nil)))
  intro x y m s hx hy hm hs
  obtain rfl : x = 0 := by dsimp at hx; omega
  obtain rfl : y = 0 := by dsimp at hy; omega
  obtain rfl : s = 0 := by dsimp at hs; omega
  have hm : m = 0 ∨ m = 1 ∨ m = 2 := by dsimp at hm; omega
  rcases hm with rfl | rfl | rfl
  · exact ⟨1#32, rfl, rfl, by decide⟩
  · exact ⟨2#32, rfl, rfl, by decide⟩
  · exact ⟨3#32, rfl, rfl, by decide⟩

/-- Non-vacuity: the second of two tensors is transposed, reshaped, and the result written. -/
example : ∃ e, rounds ⟨fun _ _ _ _ => .undefined, fun _ => none, fun _ => true⟩ "f".toList 9
    ⟨loaded ⟨1, 2, 2, 1, [1#32, 2#32, 3#32, 4#32]⟩, fun _ => none,
      ⟨"size transpose\nreshape 4 1 1 1 foo write quit".toList, false⟩⟩ = .done (false, e) ∧
    e.tensor = loaded ⟨1, 4, 1, 1, [1#32, 3#32, 2#32, 4#32]⟩ ∧
    e.disk "f".toList = some (serialize ⟨1, 4, 1, 1, [1#32, 3#32, 2#32, 4#32]⟩) ∧ e.disk "g".toList = none := by
  refine ⟨_, rfl, ?_, ?_, ?_⟩ <;> decide +kernel

/-- Non-vacuity: pixel order for three maps. -/
example : serializeBytes (fun v => some (v.extractLsb' 0 8)) ⟨1, 2, 1, 3, [1#32, 2#32, 3#32, 4#32, 5#32, 6#32]⟩ =
    some [1#8, 3#8, 5#8, 2#8, 4#8, 6#8] := by decide +kernel

end CN24.Props
