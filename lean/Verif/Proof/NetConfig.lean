import Verif.Spec.NetConfig
import Verif.Model.NetConfig
import Verif.Proof.Config
import Verif.Props.Config
import Verif.Props.Convolution
import Verif.Props.Pooling

/-
Lemmas about the reading of network descriptions.
-/

namespace CN24.NetConfig
open CN24 CN24.Config CN24.Net

/-! ### Text -/

theorem num_not {n : Nat} {c : Char} (h : c.isDigit = false) : c ∉ num n := fun hm => by
  have := digitsOf_isDigit (n := n) hm; rw [h] at this; cases this

theorem pairNum_not {a : Nat × Nat} {c : Char} (h : c.isDigit = false) (hx : c ≠ 'x') :
    c ∉ pairNum a := by
  unfold pairNum
  simp [num_not h, hx]

theorem num_length {n : Nat} (h : n ≤ 2147483647) : (num n).length ≤ 10 := by
  unfold num
  rw [Nat.length_toDigits_le_iff (by omega) (by omega)]
  omega

theorem pairNum_length {a : Nat × Nat} (h : a.1 ≤ 2147483647) (h' : a.2 ≤ 2147483647) :
    (pairNum a).length ≤ 21 := by
  unfold pairNum
  have := num_length h
  have := num_length h'
  simp only [List.length_append, List.length_cons]
  omega

theorem layerText_eq (name : Str) (ps : List (Str × Str)) :
    layerText name ps = joinSp (('?' :: name) :: ps.map pairText) := by
  unfold layerText
  rw [joinSp_cons, joinSp_cons]; rfl

theorem mem_joinSp {c : Char} : ∀ {ws : List Str}, c ∈ joinSp ws → c = ' ' ∨ ∃ w ∈ ws, c ∈ w
  | [], h => by simp [joinSp] at h
  | [w], h => Or.inr ⟨w, by simp, h⟩
  | w :: v :: ws, h => by
    rw [joinSp, List.mem_append, List.mem_cons] at h
    rcases h with h | h | h
    · exact Or.inr ⟨w, by simp, h⟩
    · exact Or.inl h
    · rcases mem_joinSp h with h | ⟨u, hu, h⟩
      · exact Or.inl h
      · exact Or.inr ⟨u, List.mem_cons_of_mem _ hu, h⟩

/-- Characters that are not in a layer line. -/
theorem not_mem_layerText {c : Char} {name : Str} {ps : List (Str × Str)} (h1 : c ≠ '?')
    (h2 : c ≠ ' ') (h3 : c ≠ '=') (hn : c ∉ name) (hp : ∀ p ∈ ps, c ∉ p.1 ∧ c ∉ p.2) :
    c ∉ layerText name ps := by
  rw [layerText_eq]
  intro h
  rcases mem_joinSp h with h | ⟨w, hw, h⟩
  · exact h2 h
  · rcases List.mem_cons.1 hw with rfl | hw
    · rcases List.mem_cons.1 h with h | h
      · exact h1 h
      · exact hn h
    · obtain ⟨p, hp', rfl⟩ := List.mem_map.1 hw
      unfold pairText at h
      rw [List.mem_append, List.mem_cons] at h
      rcases h with h | h | h
      · exact (hp p hp').1 h
      · exact h3 h
      · exact (hp p hp').2 h

/-! ### Parameters of a layer line -/

/-- The parameters of the lines: known keys, values of digits and `x`. -/
structure Params (ps : List (Str × Str)) : Prop where
  key : ∀ p ∈ ps, p.1 ∈ ["kernels".toList, "size".toList, "stride".toList, "pad".toList,
    "neurons".toList]
  value : ∀ p ∈ ps, ∀ c, c.isDigit = false → c ≠ 'x' → c ∉ p.2

theorem Params.eq_not {ps : List (Str × Str)} (h : Params ps) :
    ∀ p ∈ ps, '=' ∉ p.1 ∧ '=' ∉ p.2 := by
  intro p hp
  refine ⟨?_, h.value p hp _ rfl (by decide)⟩
  have := h.key p hp
  simp only [List.mem_cons, List.not_mem_nil, or_false] at this
  rcases this with h | h | h | h | h <;> rw [h] <;> decide +kernel

theorem absent {ps : List (Str × Str)} {w key : Str} (h : Params ps) (hkey : ' ' ∉ key)
    (hw : ¬ (key ++ ['=']) <:+: w) (hps : ∀ p ∈ ps, ¬ key <:+ p.1) :
    find (key ++ ['=']) (joinSp (w :: ps.map pairText)) = none := by
  rw [find_words_none (by simp [hkey]) (by simp)]
  intro v hv
  rcases List.mem_cons.1 hv with rfl | hv
  · exact hw
  · obtain ⟨⟨k, v⟩, hp, rfl⟩ := List.mem_map.1 hv
    rw [Props.infix_pair_iff (h.eq_not _ hp).1 (h.eq_not _ hp).2]
    exact hps _ hp

theorem absent_param {line key : Str} (h : find (key ++ ['=']) line = none) :
    param line key = some none := by
  unfold param; simp only [h]

theorem absent_count {line key : Str} (h : find (key ++ ['=']) line = none) (old : Nat) :
    parseCount line key old = some old := by
  unfold parseCount; rw [absent_param h]; rfl

theorem absent_datum {D : Type _} {line key : Str} (h : find (key ++ ['=']) line = none)
    (conv : Str → D) (old : D) : parseDatum conv line key old = some old := by
  unfold parseDatum; rw [absent_param h]; rfl

theorem absent_size {line key : Str} (h : find (key ++ ['=']) line = none) (old : Nat × Nat) :
    parseKernelSize line key old = some old := by
  unfold parseKernelSize; simp only [h]

theorem readKernelSize_of {line id : Str} {v : Nat × Nat}
    (h : ∀ old, parseKernelSize line id old = some v) : readKernelSize line id = .done v := by
  unfold readKernelSize
  have h1 := h (v.1 + 1, v.2)
  have ne : ¬ (v.1 + 1, v.2) = v := fun e => by have := congrArg Prod.fst e; simp at this
  split
  · rename_i hf
    rw [absent_size hf] at h1
    exact absurd (Option.some.inj h1) ne
  · rename_i pos hf
    split
    · rename_i hx
      unfold parseKernelSize at h1
      simp only [hf, hx] at h1
      exact absurd (Option.some.inj h1) ne
    · rw [h]; rfl

theorem linesOf_append {l : Str} (h : '\n' ∉ l) (rest : Str) :
    linesOf (l ++ '\n' :: rest) = l :: linesOf rest := by
  induction l with
  | nil => simp [linesOf]
  | cons c l ih =>
    rw [List.mem_cons, not_or] at h
    rw [List.cons_append, linesOf, if_neg (Ne.symm h.1), ih h.2]

theorem linesOf_line {l : Str} (h : '\n' ∉ l) : linesOf l = [l] := by
  induction l with
  | nil => rfl
  | cons c l ih =>
    rw [List.mem_cons, not_or] at h
    rw [linesOf, if_neg (Ne.symm h.1), ih h.2]

/-- The lines of a file. -/
theorem linesOf_joinLines : ∀ {ls : List Str}, ls ≠ [] → (∀ l ∈ ls, '\n' ∉ l) →
    linesOf (joinLines ls) = ls
  | [], h, _ => absurd rfl h
  | [l], _, h => linesOf_line (h l (by simp))
  | l :: m :: ls, _, h => by
    rw [joinLines, linesOf_append (h l (by simp)),
      linesOf_joinLines (by simp) (fun k hk => h k (List.mem_cons_of_mem _ hk))]

/-! ### The constructor -/

theorem wrap_of {i : Int} (h0 : -2147483648 ≤ i) (h1 : i ≤ 2147483647) : wrap i = i := by
  unfold wrap; omega

theorem int_of {i : Int} (h0 : -2147483648 ≤ i) (h1 : i ≤ 2147483647) : int i = .done i := by
  unfold int; rw [if_pos ⟨h0, h1⟩]

theorem grow_ok {k s p R F : Nat} (hk : 0 < k) (hp : 2 * p < k) (hk' : k ≤ 2147483647)
    (hR : R + F * (k - 1 - 2 * p) ≤ 2147483647) (hF : F * s ≤ 2147483647) :
    grow k s p R F = .done (((R + F * (k - 1 - 2 * p) : Nat) : Int), ((F * s : Nat) : Int)) := by
  unfold grow
  have e : ((k : Int) - 1 - p - p) = ((k - 1 - 2 * p : Nat) : Int) := by omega
  rw [wrap_of (i := (k : Int)) (by omega) (by omega), wrap_of (i := (p : Int)) (by omega) (by omega),
    int_of (by omega) (by omega), Outcome.bind_done, int_of (by omega) (by omega), Outcome.bind_done,
    int_of (by omega) (by omega), Outcome.bind_done, e, ← Int.natCast_mul,
    int_of (by omega) (by omega), Outcome.bind_done, ← Int.natCast_add, int_of (by omega) (by omega),
    Outcome.bind_done, ← Int.natCast_mul, wrap_of (by omega) (by omega)]

/-- The window the constructor sees: tiles are windows of one value that do not overlap. -/
def Geo.seen : Geo → Nat × Nat × Nat
  | .window k s p => (k, s, p)
  | .tile k => (1, k, 0)

theorem grow_geo {g : Geo} {R F : Nat} (hg : g.Ok) (hR : R + F * g.extra ≤ 2147483647)
    (hF : F * g.factor ≤ 2147483647) :
    grow g.seen.1 g.seen.2.1 g.seen.2.2 R F =
      .done (((R + F * g.extra : Nat) : Int), ((F * g.factor : Nat) : Int)) := by
  cases g with
  | window k s p => exact grow_ok hg.1 hg.2.2.1 hg.2.2.2.1 hR hF
  | tile k => exact grow_ok (k := 1) (s := k) (p := 0) (by omega) (by omega) (by omega) hR hF

/-- The effect of two axes. -/
def effectOf (g : Geo × Geo) : Effect :=
  ⟨(g.1.seen.1, g.2.seen.1), (g.1.seen.2.1, g.2.seen.2.1), (g.1.seen.2.2, g.2.seen.2.2)⟩

theorem effect_apply {g : Geo × Geo} {m : Method} {R R' F F' : Nat} {ig : Bool} (hg : g.1.Ok ∧ g.2.Ok)
    (hR : R + F * g.1.extra ≤ 2147483647) (hF : F * g.1.factor ≤ 2147483647)
    (hR' : R' + F' * g.2.extra ≤ 2147483647) (hF' : F' * g.2.factor ≤ 2147483647) :
    (effectOf g).apply ⟨m, R, R', F, F', ig⟩ = .done ⟨m, (R + F * g.1.extra : Nat),
      (R' + F' * g.2.extra : Nat), (F * g.1.factor : Nat), (F' * g.2.factor : Nat), ig⟩ := by
  unfold Effect.apply effectOf
  simp only []
  rw [grow_geo hg.1 hR hF, Outcome.bind_done, grow_geo hg.2 hR' hF', Outcome.bind_done]

/-! ### The constructor on the lines -/

theorem param_nil {ps : List (Str × Str)} (hp : Params ps) {name : Str} {key : Str}
    (hkey : key ∈ ["method".toList, "group".toList, "dropout".toList, "llr".toList])
    (hn : name ∈ ["convolutional".toList, "fullyconnected".toList, "maxpooling".toList,
      "downsampling".toList, "amaxpooling".toList, "sigm".toList, "relu".toList, "tanh".toList]) :
    find (key ++ ['=']) (joinSp (name :: ps.map pairText)) = none ∧
    find (key ++ ['=']) (layerText name ps) = none := by
  have hk : ∀ p ∈ ps, ¬ key <:+ p.1 := by
    intro p hp'
    have h := hp.key p hp'
    simp only [List.mem_cons, List.not_mem_nil, or_false] at h hkey
    rcases hkey with rfl | rfl | rfl | rfl <;> rcases h with h | h | h | h | h <;> rw [h] <;>
      decide +kernel
  have hs : ' ' ∉ key := by
    simp only [List.mem_cons, List.not_mem_nil, or_false] at hkey
    rcases hkey with rfl | rfl | rfl | rfl <;> decide +kernel
  have he : '=' ∉ '?' :: name := by
    simp only [List.mem_cons, List.not_mem_nil, or_false] at hn
    rcases hn with rfl | rfl | rfl | rfl | rfl | rfl | rfl | rfl <;> decide +kernel
  have hi : ∀ w : Str, '=' ∉ w → ¬ (key ++ ['=']) <:+: w := fun w hw h =>
    hw (h.mem (by simp))
  refine ⟨absent hp hs (hi _ (fun h => he (List.mem_cons_of_mem _ h))) hk, ?_⟩
  rw [layerText_eq]
  exact absent hp hs (hi _ he) hk

/-- A layer line goes to `readEffect`. -/
theorem measureLine_layer {name : Str} {ps : List (Str × Str)} (hp : Params ps) (training : Bool)
    (hn : name ∈ ["convolutional".toList, "fullyconnected".toList, "maxpooling".toList,
      "downsampling".toList, "amaxpooling".toList, "sigm".toList, "relu".toList, "tanh".toList])
    {f : Fields} (hf : f.ignore = false) :
    measureLine training (layerText name ps) f =
      (readEffect (joinSp (name :: ps.map pairText))).bind (applyEffect f) := by
  unfold measureLine
  rw [if_neg (by unfold layerText startsWithIdentifier; simp)]
  have hm : readMethod training (layerText name ps) f = .done f := by
    unfold readMethod
    rw [absent_param (param_nil hp (by simp) hn).2]
    simp [startsWithIdentifier]
  have hM : manual (layerText name ps) f = .done f := by
    unfold manual
    rw [if_neg (by unfold layerText startsWithIdentifier; simp)]
  rw [hm, Outcome.bind_done, hM, Outcome.bind_done]
  unfold growField layerText
  simp only [hf, Bool.false_eq_true, if_false]

theorem starts_joinSp (name : Str) (ws : List Str) (id : Str) :
    startsWithIdentifier (joinSp (name :: ws)) id =
      startsWithIdentifier (name ++ ws.flatMap (fun v => ' ' :: v)) id := by
  rw [joinSp_cons]

/-- The length of a short line. -/
theorem joinSp_length (ws : List Str) (b : Nat) (h : ∀ w ∈ ws, w.length ≤ b) :
    (joinSp ws).length ≤ ws.length * (b + 1) := by
  induction ws with
  | nil => simp [joinSp]
  | cons w ws ih =>
    have hw := h w (by simp)
    have := ih fun v hv => h v (List.mem_cons_of_mem _ hv)
    cases ws with
    | nil => simp [joinSp]; omega
    | cons v vs =>
      rw [joinSp, List.length_append, List.length_cons]
      rw [List.length_cons, Nat.succ_mul]
      omega

/-- A size parameter is read. -/
theorem size_read {name : Str} {ps qs : List (Str × Str)} {key : Str} {a : Nat × Nat}
    (hp : Params (ps ++ (key, pairNum a) :: qs)) (hl : (ps ++ (key, pairNum a) :: qs).length ≤ 4)
    (hlen : ∀ p ∈ ps ++ (key, pairNum a) :: qs, p.2.length ≤ 21)
    (hname : name.length ≤ 30) (he : '=' ∉ name)
    (hkey : key ∈ ["size".toList, "stride".toList, "pad".toList])
    (hps : ∀ p ∈ ps, ¬ key <:+ p.1) (ha : a.1 ≤ 2147483647) (ha' : a.2 ≤ 2147483647)
    (old : Nat × Nat) :
    parseKernelSize (joinSp (name :: (ps ++ (key, pairNum a) :: qs).map pairText)) key old = some a := by
  have hk : ' ' ∉ key ∧ 'x' ∉ key := by
    simp only [List.mem_cons, List.not_mem_nil, or_false] at hkey
    rcases hkey with rfl | rfl | rfl <;> decide +kernel
  have h := Props.C18_kernel_size_partial [name] ps qs key a.1 a.2 old hk.1 hk.2
    (fun w hw hi => by
      rw [List.mem_singleton] at hw
      subst hw
      exact he (hi.mem (by simp)))
    (fun p hp' => ⟨(hp.eq_not p (by simp [hp'])).1, (hp.eq_not p (by simp [hp'])).2, hps p hp'⟩) ha ha'
  apply h
  refine Nat.lt_of_le_of_lt (joinSp_length _ 40 ?_) ?_
  · intro w hw
    rw [List.mem_append, List.mem_singleton, List.mem_map] at hw
    rcases hw with rfl | ⟨p, hp', rfl⟩
    · omega
    · have h1 := hlen p hp'
      have h2 := hp.key p hp'
      unfold pairText
      rw [List.length_append, List.length_cons]
      have : p.1.length ≤ 7 := by
        simp only [List.mem_cons, List.not_mem_nil, or_false] at h2
        rcases h2 with h | h | h | h | h <;> rw [h] <;> decide +kernel
      omega
  · rw [List.length_append, List.length_map, List.length_singleton]
    have : (ps ++ (key, pairNum a) :: qs).length * 41 ≤ 4 * 41 := Nat.mul_le_mul_right _ hl
    change (1 + (ps ++ (key, pairNum a) :: qs).length) * 41 < _
    omega

/-- The parameters of a convolution line. -/
def convPairs (maps : Nat) (kernel : Nat × Nat) (stride pad : Option (Nat × Nat)) : List (Str × Str) :=
  [("kernels".toList, num maps), ("size".toList, pairNum kernel)] ++
    optional "stride".toList stride ++ optional "pad".toList pad

theorem optional_params {key : Str} (hkey : key ∈ ["kernels".toList, "size".toList, "stride".toList,
    "pad".toList, "neurons".toList]) (o : Option (Nat × Nat)) : Params (optional key o) := by
  cases o with
  | none => exact ⟨by simp [optional], by simp [optional]⟩
  | some a =>
    refine ⟨fun p hp => ?_, fun p hp c hc hx => ?_⟩
    · rw [optional, List.mem_singleton] at hp; subst hp; exact hkey
    · rw [optional, List.mem_singleton] at hp; subst hp; exact pairNum_not hc hx

theorem Params.append {ps qs : List (Str × Str)} (h : Params ps) (h' : Params qs) : Params (ps ++ qs) :=
  ⟨fun p hp => (List.mem_append.1 hp).elim (h.key p) (h'.key p),
   fun p hp => (List.mem_append.1 hp).elim (h.value p) (h'.value p)⟩

theorem convPairs_params (maps : Nat) (kernel : Nat × Nat) (stride pad : Option (Nat × Nat)) :
    Params (convPairs maps kernel stride pad) := by
  refine ((Params.append ?_ (optional_params (by simp) _)).append (optional_params (by simp) _))
  refine ⟨fun p hp => ?_, fun p hp c hc hx => ?_⟩ <;>
    simp only [List.mem_cons, List.not_mem_nil, or_false] at hp <;> rcases hp with rfl | rfl
  · simp
  · simp
  · exact num_not hc
  · exact pairNum_not hc hx

/-- The bounds of the parameters of a convolution. -/
structure ConvBounds (maps : Nat) (kernel : Nat × Nat) (stride pad : Option (Nat × Nat)) : Prop where
  maps : maps ≤ 2147483647
  k1 : kernel.1 ≤ 2147483647
  k2 : kernel.2 ≤ 2147483647
  stride : ∀ s, stride = some s → s.1 ≤ 2147483647 ∧ s.2 ≤ 2147483647
  pad : ∀ s, pad = some s → s.1 ≤ 2147483647 ∧ s.2 ≤ 2147483647

theorem optional_length {key : Str} {o : Option (Nat × Nat)}
    (h : ∀ s, o = some s → s.1 ≤ 2147483647 ∧ s.2 ≤ 2147483647) :
    ∀ p ∈ optional key o, p.2.length ≤ 21 := by
  intro p hp
  cases o with
  | none => simp [optional] at hp
  | some a =>
    rw [optional, List.mem_singleton] at hp
    subst hp
    exact pairNum_length (h a rfl).1 (h a rfl).2

theorem convPairs_length {maps : Nat} {kernel : Nat × Nat} {stride pad : Option (Nat × Nat)}
    (h : ConvBounds maps kernel stride pad) : ∀ p ∈ convPairs maps kernel stride pad,
      p.2.length ≤ 21 := by
  intro p hp
  unfold convPairs at hp
  simp only [List.mem_append, List.mem_cons, List.not_mem_nil, or_false] at hp
  rcases hp with ((rfl | rfl) | hp) | hp
  · have := num_length h.maps
    change (num maps).length ≤ 21
    omega
  · exact pairNum_length h.k1 h.k2
  · exact optional_length h.stride p hp
  · exact optional_length h.pad p hp

theorem optional_count (key : Str) (o : Option (Nat × Nat)) : (optional key o).length ≤ 1 := by
  cases o <;> simp [optional]

/-- Statements about known keys. -/
macro "keys" : tactic => `(tactic| first | decide +kernel | (dsimp only; decide +kernel))

/-- The sizes of a convolution line. -/
theorem conv_sizes {maps : Nat} {kernel : Nat × Nat} {stride pad : Option (Nat × Nat)}
    (h : ConvBounds maps kernel stride pad) :
    let line := joinSp ("convolutional".toList :: (convPairs maps kernel stride pad).map pairText)
    (∀ old, parseKernelSize line "size".toList old = some kernel) ∧
    (∀ old, parseKernelSize line "stride".toList old = some (stride.getD old)) ∧
    (∀ old, parseKernelSize line "pad".toList old = some (pad.getD old)) ∧
    (∀ old, parseCount line "kernels".toList old = some maps) := by
  intro line
  have hp := convPairs_params maps kernel stride pad
  have hlen := convPairs_length h
  have hcount : (convPairs maps kernel stride pad).length ≤ 4 := by
    unfold convPairs
    have := optional_count "stride".toList stride
    have := optional_count "pad".toList pad
    simp only [List.length_append, List.length_cons, List.length_nil]
    omega
  have key : ∀ {ps : List (Str × Str)} {key : Str}, key ∈ ["size".toList, "stride".toList, "pad".toList] →
      (∀ p ∈ ps, p.1 ∈ ["kernels".toList, "size".toList, "stride".toList, "pad".toList] ∧ p.1 ≠ key) →
      ∀ p ∈ ps, ¬ key <:+ p.1 := by
    intro ps key hkey h p hp'
    obtain ⟨h1, h2⟩ := h p hp'
    simp only [List.mem_cons, List.not_mem_nil, or_false] at h1 hkey
    rcases hkey with rfl | rfl | rfl <;> rcases h1 with h | h | h | h <;> rw [h] at h2 ⊢ <;>
      first
        | exact absurd rfl h2
        | decide +kernel
  have optkey : ∀ {p : Str × Str} {key : Str} {o : Option (Nat × Nat)}, p ∈ optional key o → p.1 = key := by
    intro p key o hp'
    cases o with
    | none => simp [optional] at hp'
    | some a => rw [optional, List.mem_singleton] at hp'; rw [hp']
  refine ⟨fun old => ?_, fun old => ?_, fun old => ?_, fun old => ?_⟩
  · have e : convPairs maps kernel stride pad = [("kernels".toList, num maps)] ++
        ("size".toList, pairNum kernel) :: (optional "stride".toList stride ++ optional "pad".toList pad) := by
      simp [convPairs]
    change parseKernelSize (joinSp (_ :: List.map pairText (convPairs maps kernel stride pad))) _ _ = _
    rw [e] at hp hlen hcount ⊢
    exact size_read hp hcount hlen (by decide +kernel) (by decide +kernel) (by simp)
      (key (by simp) (fun p hp' => by rw [List.mem_singleton] at hp'; rw [hp']; keys))
      h.k1 h.k2 old
  · cases stride with
    | none =>
      refine absent_size (absent hp (by decide +kernel) (by decide +kernel) ?_) old
      refine key (by simp) ?_
      intro p hp'
      simp only [convPairs, optional, List.mem_append, List.mem_cons, List.not_mem_nil, or_false] at hp'
      rcases hp' with (rfl | rfl) | hp'
      · keys
      · keys
      · have := optkey hp'; rw [this]; decide +kernel
    | some s =>
      have e : convPairs maps kernel (some s) pad = [("kernels".toList, num maps),
          ("size".toList, pairNum kernel)] ++
          ("stride".toList, pairNum s) :: optional "pad".toList pad := by
        simp [convPairs, optional]
      change parseKernelSize (joinSp (_ :: List.map pairText (convPairs maps kernel (some s) pad))) _ _ = _
      rw [e] at hp hlen hcount ⊢
      exact size_read hp hcount hlen (by decide +kernel) (by decide +kernel) (by simp)
        (key (by simp) (fun p hp' => by
          simp only [List.mem_cons, List.not_mem_nil, or_false] at hp'
          rcases hp' with rfl | rfl <;> keys))
        (h.stride s rfl).1 (h.stride s rfl).2 old
  · cases pad with
    | none =>
      refine absent_size (absent hp (by decide +kernel) (by decide +kernel) ?_) old
      refine key (by simp) ?_
      intro p hp'
      simp only [convPairs, optional, List.mem_append, List.mem_cons, List.not_mem_nil, or_false] at hp'
      rcases hp' with (rfl | rfl) | hp'
      · keys
      · keys
      · have := optkey hp'; rw [this]; decide +kernel
    | some s =>
      have e : convPairs maps kernel stride (some s) = ([("kernels".toList, num maps),
          ("size".toList, pairNum kernel)] ++ optional "stride".toList stride) ++
          ("pad".toList, pairNum s) :: [] := by
        simp [convPairs, optional]
      change parseKernelSize (joinSp (_ :: List.map pairText (convPairs maps kernel stride (some s)))) _ _ = _
      rw [e] at hp hlen hcount ⊢
      exact size_read hp hcount hlen (by decide +kernel) (by decide +kernel) (by simp)
        (key (by simp) (fun p hp' => by
          simp only [List.mem_append, List.mem_cons, List.not_mem_nil, or_false] at hp'
          rcases hp' with (rfl | rfl) | hp'
          · keys
          · keys
          · have := optkey hp'; rw [this]; decide +kernel))
        (h.pad s rfl).1 (h.pad s rfl).2 old
  · have e : line = joinSp (["convolutional".toList] ++ (([] : List (Str × Str)) ++
        ("kernels".toList, digitsOf maps) :: (("size".toList, pairNum kernel) ::
          (optional "stride".toList stride ++ optional "pad".toList pad))).map pairText) := by
      simp [line, convPairs, num, digitsOf]
    rw [e]
    exact Props.C18_count_partial _ _ _ _ _ _ (by decide +kernel)
      (fun w hw => by rw [List.mem_singleton] at hw; rw [hw]; decide +kernel) (by simp) h.maps

/-- The parameters of a pooling line. -/
def poolPairs (size : Nat × Nat) (stride : Option (Nat × Nat)) : List (Str × Str) :=
  ("size".toList, pairNum size) :: optional "stride".toList stride

theorem poolPairs_params (size : Nat × Nat) (stride : Option (Nat × Nat)) :
    Params (poolPairs size stride) := by
  have h : Params [("size".toList, pairNum size)] := by
    refine ⟨fun p hp => ?_, fun p hp c hc hx => ?_⟩ <;> rw [List.mem_singleton] at hp <;> subst hp
    · simp
    · exact pairNum_not hc hx
  exact h.append (optional_params (by simp) _)

theorem pool_sizes {name : Str} {size : Nat × Nat} {stride : Option (Nat × Nat)}
    (hn : name.length ≤ 30) (he : '=' ∉ name)
    (h1 : size.1 ≤ 2147483647) (h2 : size.2 ≤ 2147483647)
    (hs : ∀ s, stride = some s → s.1 ≤ 2147483647 ∧ s.2 ≤ 2147483647) :
    let line := joinSp (name :: (poolPairs size stride).map pairText)
    (∀ old, parseKernelSize line "size".toList old = some size) ∧
    (∀ old, parseKernelSize line "stride".toList old = some (stride.getD old)) := by
  intro line
  have hp := poolPairs_params size stride
  have hlen : ∀ p ∈ poolPairs size stride, p.2.length ≤ 21 := by
    intro p hp'
    rcases List.mem_cons.1 hp' with rfl | hp'
    · exact pairNum_length h1 h2
    · exact optional_length hs p hp'
  have hcount : (poolPairs size stride).length ≤ 4 := by
    unfold poolPairs
    have := optional_count "stride".toList stride
    rw [List.length_cons]
    omega
  refine ⟨fun old => ?_, fun old => ?_⟩
  · exact size_read (ps := []) (qs := optional "stride".toList stride) hp hcount hlen hn he (by simp)
      (by simp) h1 h2 old
  · cases stride with
    | none =>
      refine absent_size (absent hp (by decide +kernel) (fun hi => he (hi.mem (by simp))) ?_) old
      intro p hp'
      simp only [poolPairs, optional, List.mem_singleton] at hp'
      subst hp'
      keys
    | some s =>
      refine size_read (ps := [("size".toList, pairNum size)]) (qs := []) hp hcount hlen hn he (by simp)
        (fun p hp' => ?_) (hs s rfl).1 (hs s rfl).2 old
      rw [List.mem_singleton] at hp'
      subst hp'
      keys

theorem no_params : Params [] := ⟨by simp, by simp⟩

theorem full_params (n : Nat) : Params [("neurons".toList, num n)] := by
  refine ⟨fun p hp => ?_, fun p hp c hc hx => ?_⟩ <;> rw [List.mem_singleton] at hp <;> subst hp
  · simp
  · exact num_not hc

theorem conv_bounds {n : Nat} {k : Nat × Nat} {s p : Option (Nat × Nat)} (h : (Item.conv n k s p).Ok) :
    ConvBounds n k s p := by
  obtain ⟨_, h1, _, h2⟩ := h
  have h2 := h2 _ rfl
  simp only [Geo.Ok] at h2
  refine ⟨h1 _ _ _ _ rfl, h2.1.2.2.2.1, h2.2.2.2.2.1, ?_, ?_⟩
  · rintro s rfl
    exact ⟨h2.1.2.2.2.2, h2.2.2.2.2.2⟩
  · rintro p rfl
    have a := h2.1.2.2
    have b := h2.2.2.2
    simp only [Option.getD_some] at a b
    omega

theorem readEffect_conv {n : Nat} {k : Nat × Nat} {s p : Option (Nat × Nat)}
    (h : (Item.conv n k s p).Ok) :
    readEffect (joinSp ("convolutional".toList :: (convPairs n k s p).map pairText)) =
      .done (some ⟨k, s.getD (1, 1), p.getD (0, 0)⟩) := by
  obtain ⟨c1, c2, c3, _⟩ := conv_sizes (conv_bounds h)
  unfold readEffect
  rw [if_pos (by rw [starts_joinSp]; rfl), c2, Outcome.ofOption_some, Outcome.bind_done, c3,
    Outcome.ofOption_some, Outcome.bind_done, readKernelSize_of c1, Outcome.bind_done]

theorem readEffect_max {k : Nat × Nat} (h1 : k.1 ≤ 2147483647) (h2 : k.2 ≤ 2147483647) :
    readEffect (joinSp ("maxpooling".toList :: (poolPairs k none).map pairText)) =
      .done (some ⟨(1, 1), k, (0, 0)⟩) := by
  obtain ⟨c1, _⟩ := pool_sizes (name := "maxpooling".toList) (stride := none) (by decide +kernel)
    (by decide +kernel) h1 h2 (by simp)
  unfold readEffect
  rw [if_neg (by rw [starts_joinSp]; exact Bool.false_ne_true), if_pos (by rw [starts_joinSp]; rfl),
    readKernelSize_of c1, Outcome.bind_done]

theorem readEffect_down {k : Nat × Nat} (h1 : k.1 ≤ 2147483647) (h2 : k.2 ≤ 2147483647) :
    readEffect (joinSp ("downsampling".toList :: (poolPairs k none).map pairText)) =
      .done (some ⟨(1, 1), k, (0, 0)⟩) := by
  obtain ⟨c1, _⟩ := pool_sizes (name := "downsampling".toList) (stride := none) (by decide +kernel)
    (by decide +kernel) h1 h2 (by simp)
  unfold readEffect
  rw [if_neg (by rw [starts_joinSp]; exact Bool.false_ne_true),
    if_neg (by rw [starts_joinSp]; exact Bool.false_ne_true), if_pos (by rw [starts_joinSp]; rfl),
    readKernelSize_of c1, Outcome.bind_done]

theorem readEffect_strided {k : Nat × Nat} {s : Option (Nat × Nat)} (h1 : k.1 ≤ 2147483647)
    (h2 : k.2 ≤ 2147483647) (hs : ∀ a, s = some a → a.1 ≤ 2147483647 ∧ a.2 ≤ 2147483647) :
    readEffect (joinSp ("amaxpooling".toList :: (poolPairs k s).map pairText)) =
      .done (some ⟨k, s.getD k, (0, 0)⟩) := by
  obtain ⟨c1, c2⟩ := pool_sizes (name := "amaxpooling".toList) (stride := s) (by decide +kernel)
    (by decide +kernel) h1 h2 hs
  unfold readEffect
  rw [if_neg (by rw [starts_joinSp]; exact Bool.false_ne_true),
    if_neg (by rw [starts_joinSp]; exact Bool.false_ne_true),
    if_neg (by rw [starts_joinSp]; exact Bool.false_ne_true), if_pos (by rw [starts_joinSp]; rfl),
    readKernelSize_of c1, Outcome.bind_done, c2, Outcome.ofOption_some, Outcome.bind_done]

theorem readEffect_none {name : Str} (ws : List Str)
    (hn : name ∈ ["fullyconnected".toList, "sigm".toList, "relu".toList, "tanh".toList]) :
    readEffect (joinSp (name :: ws)) = .done none := by
  unfold readEffect
  simp only [starts_joinSp]
  simp only [List.mem_cons, List.not_mem_nil, or_false] at hn
  rcases hn with rfl | rfl | rfl | rfl <;> rfl

/-! ### Arithmetic of chains -/

theorem total_append (a b : List Geo) : total (a ++ b) = total a * total b := by
  induction a with
  | nil => simp [total]
  | cons g gs ih => rw [List.cons_append, total, total, ih, Nat.mul_assoc]

theorem field_append (a b : List Geo) : field (a ++ b) = field a + total a * field b := by
  induction a with
  | nil => simp [total, field]
  | cons g gs ih =>
    rw [List.cons_append, field, field, total, ih, Nat.mul_add, Nat.mul_assoc]
    omega

theorem total_pos {gs : List Geo} (h : ∀ g ∈ gs, g.Ok) : 0 < total gs := by
  induction gs with
  | nil => simp [total]
  | cons g gs ih =>
    have hg := h g (by simp)
    refine Nat.mul_pos ?_ (ih fun g hg => h g (List.mem_cons_of_mem _ hg))
    cases g with
    | window k s p => exact hg.2.1
    | tile k => exact hg.1

/-- The axes of one line. -/
def Item.gx (i : Item) : List Geo := (i.geo.map (·.1)).toList
def Item.gy (i : Item) : List Geo := (i.geo.map (·.2)).toList

theorem geoX_cons (i : Item) (is : List Item) : geoX (i :: is) = i.gx ++ geoX is := by
  unfold geoX Item.gx
  cases h : i.geo <;> simp [h]

theorem geoY_cons (i : Item) (is : List Item) : geoY (i :: is) = i.gy ++ geoY is := by
  unfold geoY Item.gy
  cases h : i.geo <;> simp [h]

theorem Item.gx_ok {i : Item} (h : i.Ok) : ∀ g ∈ i.gx, g.Ok := by
  intro g hg
  unfold Item.gx at hg
  rw [Option.mem_toList, Option.map_eq_some_iff] at hg
  obtain ⟨a, ha, rfl⟩ := hg
  exact (h.2.2.2 a ha).1

theorem Item.gy_ok {i : Item} (h : i.Ok) : ∀ g ∈ i.gy, g.Ok := by
  intro g hg
  unfold Item.gy at hg
  rw [Option.mem_toList, Option.map_eq_some_iff] at hg
  obtain ⟨a, ha, rfl⟩ := hg
  exact (h.2.2.2 a ha).2

theorem geoX_ok {items : List Item} (h : ∀ i ∈ items, i.Ok) : ∀ g ∈ geoX items, g.Ok := by
  induction items with
  | nil => simp [geoX]
  | cons i is ih =>
    rw [geoX_cons]
    intro g hg
    rcases List.mem_append.1 hg with hg | hg
    · exact Item.gx_ok (h i (by simp)) g hg
    · exact ih (fun j hj => h j (List.mem_cons_of_mem _ hj)) g hg

theorem geoY_ok {items : List Item} (h : ∀ i ∈ items, i.Ok) : ∀ g ∈ geoY items, g.Ok := by
  induction items with
  | nil => simp [geoY]
  | cons i is ih =>
    rw [geoY_cons]
    intro g hg
    rcases List.mem_append.1 hg with hg | hg
    · exact Item.gy_ok (h i (by simp)) g hg
    · exact ih (fun j hj => h j (List.mem_cons_of_mem _ hj)) g hg

/-- The method after a line. -/
def Item.method (training : Bool) (m : Method) (i : Item) : Method :=
  if training = true ∧ i = .patches then .patch else m

theorem apply_geo {i : Item} {g : Geo × Geo} (hg : i.geo = some g) (hok : i.Ok) {training : Bool}
    {m : Method} {R R' F F' : Nat} (hi : i ≠ .patches)
    (hR : R + F * field i.gx ≤ 2147483647) (hF : F * total i.gx ≤ 2147483647)
    (hR' : R' + F' * field i.gy ≤ 2147483647) (hF' : F' * total i.gy ≤ 2147483647) :
    applyEffect ⟨m, R, R', F, F', false⟩ (some (effectOf g)) = .done ⟨i.method training m,
      (R + F * field i.gx : Nat), (R' + F' * field i.gy : Nat), (F * total i.gx : Nat),
      (F' * total i.gy : Nat), false⟩ := by
  have ex : i.gx = [g.1] := by unfold Item.gx; rw [hg]; rfl
  have ey : i.gy = [g.2] := by unfold Item.gy; rw [hg]; rfl
  rw [ex] at hR hF ⊢
  rw [ey] at hR' hF' ⊢
  simp only [field, total, Nat.mul_zero, Nat.add_zero, Nat.mul_one] at hR hF hR' hF' ⊢
  have hm : i.method training m = m := by unfold Item.method; rw [if_neg (fun h => hi h.2)]
  rw [hm]
  exact effect_apply (hok.2.2.2 g hg) hR hF hR' hF'

theorem measureLine_comment (training : Bool) (t : Str) (f : Fields) :
    measureLine training ('#' :: t) f = .done f := by
  unfold measureLine
  rw [if_pos (by simp [startsWithIdentifier])]

theorem measureLine_patches (training : Bool) (f : Fields) :
    measureLine training "method=patch".toList f =
      .done { f with method := if training = true then .patch else f.method } := by
  have hp : param "method=patch".toList "method".toList = some (some "patch".toList) := by
    decide +kernel
  have h1 : startsWithIdentifier "method=patch".toList "manual".toList = false := by decide +kernel
  unfold measureLine readMethod
  rw [if_neg (by decide +kernel), hp, Outcome.ofOption_some, Outcome.bind_done]
  have hs : startsWithIdentifier ((some "patch".toList).getD []) "patch".toList = true := by
    decide +kernel
  rw [hs]
  have hr : ∀ g : Fields, (manual "method=patch".toList g).bind
      (fun f => growField "method=patch".toList f) = .done g := by
    intro g
    unfold manual
    rw [h1, if_neg Bool.false_ne_true, Outcome.bind_done]
    rfl
  cases training
  · rw [if_neg (by simp), Outcome.bind_done, hr]; rfl
  · rw [if_pos (by simp), Outcome.bind_done, hr]; rfl

theorem measureLine_item {i : Item} (hok : i.Ok) {training : Bool} {m : Method} {R R' F F' : Nat}
    (hR : R + F * field i.gx ≤ 2147483647) (hF : F * total i.gx ≤ 2147483647)
    (hR' : R' + F' * field i.gy ≤ 2147483647) (hF' : F' * total i.gy ≤ 2147483647) :
    measureLine training i.text ⟨m, R, R', F, F', false⟩ = .done ⟨i.method training m,
      (R + F * field i.gx : Nat), (R' + F' * field i.gy : Nat), (F * total i.gx : Nat),
      (F' * total i.gy : Nat), false⟩ := by
  cases i with
  | comment t =>
    change measureLine training ('#' :: t) _ = _
    rw [measureLine_comment]
    simp [Item.gx, Item.gy, Item.geo, field, total, Item.method]
  | other t =>
    obtain ⟨h1, h2, h3⟩ := hok.1 t rfl
    have e : measureLine training t ⟨m, R, R', F, F', false⟩ = .done ⟨m, R, R', F, F', false⟩ := by
      unfold measureLine
      split
      · rfl
      · have hm : find ("method".toList ++ ['=']) t = none :=
          find_none_of_not_infix (by simp) (h3 _ (by simp))
        unfold readMethod
        rw [absent_param hm, Outcome.ofOption_some, Outcome.bind_done]
        rw [if_neg (by simp [startsWithIdentifier]), Outcome.bind_done]
        unfold manual
        rw [if_neg (by
          have := h2 "manual".toList (by simp)
          simpa [startsWithIdentifier] using this), Outcome.bind_done]
        unfold growField
        split
        · exact absurd ⟨_, rfl⟩ h1
        · rfl
    change measureLine training t _ = _
    rw [e]
    simp [Item.gx, Item.gy, Item.geo, field, total, Item.method]
  | patches =>
    change measureLine training "method=patch".toList _ = _
    rw [measureLine_patches]
    cases training <;> simp [Item.gx, Item.gy, Item.geo, field, total, Item.method]
  | conv n k s p =>
    rw [show (Item.conv n k s p).text = layerText "convolutional".toList (convPairs n k s p) from rfl,
      measureLine_layer (convPairs_params n k s p) _ (by simp) rfl, readEffect_conv hok,
      Outcome.bind_done]
    exact apply_geo (i := .conv n k s p) (g := (.window k.1 (s.getD (1, 1)).1 (p.getD (0, 0)).1,
      .window k.2 (s.getD (1, 1)).2 (p.getD (0, 0)).2)) rfl hok (by simp) hR hF hR' hF'
  | full n =>
    rw [show (Item.full n).text = layerText "fullyconnected".toList [("neurons".toList, num n)] from rfl,
      measureLine_layer (full_params n) _ (by simp) rfl, readEffect_none _ (by simp), Outcome.bind_done]
    simp [Item.gx, Item.gy, Item.geo, field, total, Geo.extra, Geo.factor, Item.method, applyEffect]
  | maxPool k =>
    have h := hok.2.2.2 _ rfl
    simp only [Geo.Ok] at h
    rw [show (Item.maxPool k).text = layerText "maxpooling".toList (poolPairs k none) from rfl,
      measureLine_layer (poolPairs_params k none) _ (by simp) rfl, readEffect_max h.1.2 h.2.2,
      Outcome.bind_done]
    exact apply_geo (i := .maxPool k) (g := (.tile k.1, .tile k.2)) rfl hok (by simp) hR hF hR' hF'
  | down k =>
    have h := hok.2.2.2 _ rfl
    simp only [Geo.Ok] at h
    rw [show (Item.down k).text = layerText "downsampling".toList (poolPairs k none) from rfl,
      measureLine_layer (poolPairs_params k none) _ (by simp) rfl, readEffect_down h.1.2 h.2.2,
      Outcome.bind_done]
    exact apply_geo (i := .down k) (g := (.tile k.1, .tile k.2)) rfl hok (by simp) hR hF hR' hF'
  | stridedPool k s =>
    have h := hok.2.2.2 _ rfl
    simp only [Geo.Ok] at h
    rw [show (Item.stridedPool k s).text = layerText "amaxpooling".toList (poolPairs k s) from rfl,
      measureLine_layer (poolPairs_params k s) _ (by simp) rfl,
      readEffect_strided h.1.2.2.2.1 h.2.2.2.2.1 (fun a ha => by
        subst ha; exact ⟨h.1.2.2.2.2, h.2.2.2.2.2⟩), Outcome.bind_done]
    exact apply_geo (i := .stridedPool k s) (g := (.window k.1 (s.getD k).1 0, .window k.2 (s.getD k).2 0))
      rfl hok (by simp) hR hF hR' hF'
  | act a =>
    rw [show (Item.act a).text = layerText a.name [] from rfl,
      measureLine_layer no_params _ (by cases a <;> simp [Act.name]) rfl,
      readEffect_none _ (by cases a <;> simp [Act.name]), Outcome.bind_done]
    simp [Item.gx, Item.gy, Item.geo, field, total, Item.method, applyEffect]

/-- The method of a description. -/
def methodOf (training : Bool) (items : List Item) (m : Method) : Method :=
  if training = true ∧ Item.patches ∈ items then .patch else m

theorem measure_items (training : Bool) (rest : List Str) : ∀ (items : List Item),
    (∀ i ∈ items, i.Ok) → ∀ {m : Method} {R R' F F' : Nat},
    R + F * field (geoX items) ≤ 2147483647 → F * total (geoX items) ≤ 2147483647 →
    R' + F' * field (geoY items) ≤ 2147483647 → F' * total (geoY items) ≤ 2147483647 →
    measure training (items.map Item.text ++ rest) ⟨m, R, R', F, F', false⟩ =
      measure training rest ⟨methodOf training items m,
        (R + F * field (geoX items) : Nat), (R' + F' * field (geoY items) : Nat),
        (F * total (geoX items) : Nat), (F' * total (geoY items) : Nat), false⟩
  | [], _, m, R, R', F, F', _, _, _, _ => by
    simp [geoX, geoY, field, total, methodOf]
  | i :: is, hok, m, R, R', F, F', hR, hF, hR', hF' => by
    have hi := hok i (by simp)
    have his : ∀ j ∈ is, j.Ok := fun j hj => hok j (List.mem_cons_of_mem _ hj)
    rw [geoX_cons, field_append, total_append] at *
    rw [geoY_cons, field_append, total_append] at *
    have px := total_pos (geoX_ok his)
    have py := total_pos (geoY_ok his)
    rw [Nat.mul_add, ← Nat.mul_assoc, ← Nat.add_assoc] at hR hR'
    rw [← Nat.mul_assoc] at hF hF'
    have bound : ∀ {a b : Nat}, 0 < b → a * b ≤ 2147483647 → a ≤ 2147483647 := fun hb h =>
      Nat.le_trans (Nat.le_mul_of_pos_right _ hb) h
    rw [List.map_cons, List.cons_append, measure, measureLine_item hi
      (Nat.le_trans (Nat.le_add_right _ _) hR) (bound px hF)
      (Nat.le_trans (Nat.le_add_right _ _) hR') (bound py hF'), Outcome.bind_done,
      measure_items training rest is his hR hF hR' hF']
    have hm : methodOf training is (i.method training m) = methodOf training (i :: is) m := by
      unfold methodOf Item.method
      by_cases h1 : training = true <;> by_cases h2 : i = Item.patches <;>
        by_cases h3 : Item.patches ∈ is <;> simp [h1, h2, h3, eq_comm]
    rw [hm, Nat.mul_add, Nat.mul_add, Nat.add_assoc, Nat.add_assoc, Nat.mul_assoc, Nat.mul_assoc,
      Nat.mul_assoc, Nat.mul_assoc]

/-- The output line has no effect on the receptive field. -/
theorem measure_output (training : Bool) {f : Fields} (hf : f.ignore = false) :
    measure training ["?output".toList] f = .done f := by
  have hp : param "?output".toList "method".toList = some none := by decide +kernel
  have he : readEffect "output".toList = .done none := by decide +kernel
  have hg : growField "?output".toList f = .done f := by
    change (if f.ignore = true then Outcome.done f else (readEffect "output".toList).bind (applyEffect f)) = _
    rw [hf, if_neg Bool.false_ne_true, he]; rfl
  unfold measure measureLine readMethod manual
  rw [if_neg (by decide +kernel), hp, Outcome.ofOption_some, Outcome.bind_done,
    if_neg (by simp [startsWithIdentifier]), Outcome.bind_done, if_neg (by decide +kernel),
    Outcome.bind_done, hg]
  rfl

/-- The constructor on a description. -/
theorem construct_items (training : Bool) (items : List Item) (hok : ∀ i ∈ items, i.Ok)
    (hx : field (geoX items) + total (geoX items) ≤ 2147483647)
    (hy : field (geoY items) + total (geoY items) ≤ 2147483647) :
    construct (items.map Item.text ++ ["?output".toList]) training =
      let m := methodOf training items .fcn
      .done ⟨m, ((if m = .patch then field (geoX items) + total (geoX items) else field (geoX items) : Nat) : Int),
        ((if m = .patch then field (geoY items) + total (geoY items) else field (geoY items) : Nat) : Int),
        (total (geoX items) : Nat), (total (geoY items) : Nat), false⟩ := by
  unfold construct
  have h := measure_items training ["?output".toList] items hok (m := .fcn) (R := 0) (R' := 0) (F := 1)
    (F' := 1) (by omega) (by omega) (by omega) (by omega)
  rw [show ({} : Fields) = ⟨.fcn, ((0 : Nat) : Int), ((0 : Nat) : Int), ((1 : Nat) : Int), ((1 : Nat) : Int), false⟩
    from rfl, h, measure_output training rfl, Outcome.bind_done]
  simp only [Nat.zero_add, Nat.one_mul]
  cases methodOf training items .fcn with
  | fcn => simp
  | patch =>
    simp only [if_true]
    rw [int_of (by omega) (by omega), Outcome.bind_done, int_of (by omega) (by omega), Outcome.bind_done]
    simp

/-! ### AddLayers on the lines -/

section Add
variable {D : Type _}

theorem orThrow_some {α : Type _} (a : α) : orThrow (some a) = .done a := rfl

theorem orThrow_eq_done {α : Type _} {o : Option α} {a : α} : orThrow o = .done a ↔ o = some a := by
  cases o <;> simp [orThrow]

theorem replaceFirst_none {pat text line : Str} (hp : pat ≠ []) (h : ¬ pat <:+: line) :
    replaceFirst pat text line = none := by
  unfold replaceFirst; rw [find_none_of_not_infix hp h]; rfl

theorem preprocess_id {line : Str} (h1 : '(' ∉ line) (h2 : 'f' ∉ line) (m : Method) (classes : Nat) :
    preprocess m classes line = .done line := by
  have no : ∀ {pat : Str} {c : Char}, c ∈ pat → c ∉ line → ¬ pat <:+: line := fun hc hn hi =>
    hn (hi.mem hc)
  unfold preprocess
  rw [replaceFirst_none (by simp) (no (c := '(') (by decide +kernel) h1), Option.getD_none]
  simp only []
  rw [replaceFirst_none (by simp) (no (c := 'f') (by decide +kernel) h2)]
  simp only [Outcome.bind_done]
  rw [if_neg]
  rw [find_none_of_not_infix (by simp) (no (c := 'f') (by decide +kernel) h2)]
  simp

/-- The node of a line: the layer and whether its output is worth a gradient. -/
def Item.layer (zero one : D) (draw : Nat) : Item → Option (Layer D × Bool)
  | .conv n k s p => some (.conv ⟨n, k.1, k.2, (s.getD (1, 1)).1, (s.getD (1, 1)).2,
      (p.getD (0, 0)).1, (p.getD (0, 0)).2, 1⟩ draw zero one, true)
  | .full n => some (.conv ⟨n, 1, 1, 1, 1, 0, 0, 1⟩ draw zero one, true)
  | .maxPool k => some (.maxPool k.1 k.2, true)
  | .down k => some (.downSample k.1 k.2, false)
  | .stridedPool k s => some (.advMaxPool k.1 k.2 (s.getD k).1 (s.getD k).2, true)
  | .act .sigm => some (.sigmoid, true)
  | .act .relu => some (.relu, true)
  | .act .tanh => some (.tanh, true)
  | _ => none

/-- Draws of random numbers by a line. -/
def Item.drawn : Item → Nat
  | .conv .. | .full _ => 1
  | _ => 0

/-- The state after a line. -/
def State.step (zero one : D) (st : State D) (i : Item) : State D :=
  match i.layer zero one st.draws with
  | none => st
  | some l => { st.add ⟨l.1, [st.last], false⟩ l.2 with draws := st.draws + i.drawn }

/-- A layer line goes to `layerLine`. -/
theorem addLine_layer (conv : Str → D) (zero one : D) (f : Fields) (data : Conn) (classes : Nat)
    (loss : Bool) {line : Str} {st st' : State D}
    (ho : startsWithIdentifier line "output".toList = false)
    {text : Str} (hc : startsWithIdentifier text ['#'] = false)
    (hpre : preprocess f.method classes text = .done ('?' :: line))
    (hl : layerLine conv zero one f data false line st = .done (st', false)) :
    addLine conv zero one f data classes loss text st = .done st' := by
  unfold addLine
  rw [hc, if_neg Bool.false_ne_true, hpre, Outcome.bind_done]
  have ho' : outputLine conv one classes ('?' :: line) = .done ('?' :: line, false, one) := by
    unfold outputLine
    rw [if_neg]
    change ¬ startsWithIdentifier line "output".toList = true
    rw [ho]; exact Bool.false_ne_true
  have hs : stackLine ('?' :: line) st = .done st := by
    unfold stackLine startsWithIdentifier
    rw [if_neg (by simp), if_neg (by simp), if_neg (by simp), if_neg (by simp)]
  rw [ho', Outcome.bind_done]
  simp only []
  rw [hs, Outcome.bind_done, hl, Outcome.bind_done]
  simp [scaleOutput, addLoss]

/-- What a convolution line adds, from what is read. -/
theorem convolutionLine_ok (conv : Str → D) (zero one : D) {line : Str} {st : State D} {n : Nat}
    {k s p : Nat × Nat}
    (h1 : ∀ old, parseKernelSize line "size".toList old = some k)
    (h2 : parseKernelSize line "stride".toList (1, 1) = some s)
    (h3 : parseKernelSize line "pad".toList (0, 0) = some p)
    (h4 : ∀ old, parseCount line "kernels".toList old = some n)
    (h5 : find ("group".toList ++ ['=']) line = none)
    (h6 : find ("dropout".toList ++ ['=']) line = none)
    (h7 : find ("llr".toList ++ ['=']) line = none)
    (hk : 0 < k.1 ∧ 0 < k.2) (hs : 0 < s.1 ∧ 0 < s.2) :
    convolutionLine conv zero one line st = .done
      ({ st with draws := st.draws + 1 }.add
        ⟨.conv ⟨n, k.1, k.2, s.1, s.2, p.1, p.2, 1⟩ st.draws zero one, [st.last], false⟩) := by
  have hcons : Convolution.construct ⟨n, k.1, k.2, s.1, s.2, p.1, p.2, 1⟩ =
      .done ⟨n, k.1, k.2, s.1, s.2, p.1, p.2, 1⟩ := by
    unfold Convolution.construct
    rw [if_neg (by simp only []; omega), if_neg (by simp only []; omega), if_neg (by simp only []; omega),
      if_neg (by simp only []; omega)]
  unfold convolutionLine
  rw [h1, Outcome.ofOption_some, Outcome.bind_done, h2, Outcome.ofOption_some, Outcome.bind_done, h3,
    Outcome.ofOption_some, Outcome.bind_done, h4, Outcome.ofOption_some, Outcome.bind_done,
    absent_count h5, Outcome.ofOption_some, Outcome.bind_done, absent_datum h6, Outcome.ofOption_some,
    Outcome.bind_done, absent_datum h7, Outcome.ofOption_some, Outcome.bind_done, hcons,
    Outcome.bind_done]

theorem layerLine_conv (conv : Str → D) (zero one : D) (f : Fields) (data : Conn) {line : Str}
    {st st' : State D} (hs : startsWithIdentifier line "convolutional".toList = true)
    (h : convolutionLine conv zero one line st = .done st') :
    layerLine conv zero one f data false line st = .done (st', false) := by
  unfold layerLine
  rw [if_pos hs, h]; rfl

theorem optional_no {key : Str} {o : Option (Nat × Nat)} {c : Char} (hk : c ∉ key)
    (hd : c.isDigit = false) (hx : c ≠ 'x') : ∀ p ∈ optional key o, c ∉ p.1 ∧ c ∉ p.2 := by
  intro p hp
  cases o with
  | none => simp [optional] at hp
  | some a =>
    rw [optional, List.mem_singleton] at hp
    subst hp
    exact ⟨hk, pairNum_not hd hx⟩

theorem convPairs_no {c : Char} (hc : c = '(' ∨ c = 'f') (n : Nat) (k : Nat × Nat)
    (s p : Option (Nat × Nat)) : ∀ q ∈ convPairs n k s p, c ∉ q.1 ∧ c ∉ q.2 := by
  have hd : c.isDigit = false ∧ c ≠ 'x' := by rcases hc with rfl | rfl <;> decide
  have hk : c ∉ "kernels".toList ∧ c ∉ "size".toList ∧ c ∉ "stride".toList ∧ c ∉ "pad".toList := by
    rcases hc with rfl | rfl <;> decide +kernel
  intro q hq
  unfold convPairs at hq
  simp only [List.mem_append, List.mem_cons, List.not_mem_nil, or_false] at hq
  rcases hq with ((rfl | rfl) | hq) | hq
  · exact ⟨hk.1, num_not hd.1⟩
  · exact ⟨hk.2.1, pairNum_not hd.1 hd.2⟩
  · exact optional_no hk.2.2.1 hd.1 hd.2 q hq
  · exact optional_no hk.2.2.2 hd.1 hd.2 q hq

theorem poolPairs_no {c : Char} (hc : c = '(' ∨ c = 'f') (k : Nat × Nat)
    (s : Option (Nat × Nat)) : ∀ q ∈ poolPairs k s, c ∉ q.1 ∧ c ∉ q.2 := by
  have hd : c.isDigit = false ∧ c ≠ 'x' := by rcases hc with rfl | rfl <;> decide
  have hk : c ∉ "size".toList ∧ c ∉ "stride".toList := by
    rcases hc with rfl | rfl <;> decide +kernel
  intro q hq
  rcases List.mem_cons.1 hq with rfl | hq
  · exact ⟨hk.1, pairNum_not hd.1 hd.2⟩
  · exact optional_no hk.2 hd.1 hd.2 q hq

theorem preprocess_layer {name : Str} {ps : List (Str × Str)} (m : Method) (classes : Nat)
    (hn : '(' ∉ name ∧ 'f' ∉ name)
    (h : ∀ c : Char, c = '(' ∨ c = 'f' → ∀ q ∈ ps, c ∉ q.1 ∧ c ∉ q.2) :
    preprocess m classes (layerText name ps) = .done ('?' :: joinSp (name :: ps.map pairText)) := by
  refine preprocess_id ?_ ?_ m classes
  · exact not_mem_layerText (by decide) (by decide) (by decide) hn.1 (h _ (Or.inl rfl))
  · exact not_mem_layerText (by decide) (by decide) (by decide) hn.2 (h _ (Or.inr rfl))

/-- A convolution line. -/
theorem addLine_conv (conv : Str → D) (zero one : D) (f : Fields) (data : Conn) (classes : Nat)
    (loss : Bool) (st : State D) {n : Nat} {k : Nat × Nat} {s p : Option (Nat × Nat)}
    (hok : (Item.conv n k s p).Ok) :
    addLine conv zero one f data classes loss (Item.conv n k s p).text st =
      .done (st.step zero one (.conv n k s p)) := by
  obtain ⟨c1, c2, c3, c4⟩ := conv_sizes (conv_bounds hok)
  have hg := hok.2.2.2 _ rfl
  simp only [Geo.Ok] at hg
  have hp := convPairs_params n k s p
  refine addLine_layer conv zero one f data classes loss
    (line := joinSp ("convolutional".toList :: (convPairs n k s p).map pairText))
    (by rw [starts_joinSp]; rfl) rfl
    (preprocess_layer _ _ (by decide +kernel) (fun c hc => convPairs_no hc n k s p)) ?_
  refine layerLine_conv conv zero one f data (by rw [starts_joinSp]; rfl) ?_
  rw [convolutionLine_ok conv zero one c1 (c2 _) (c3 _) c4 (param_nil hp (by simp) (by simp)).1
    (param_nil hp (by simp) (by simp)).1 (param_nil hp (by simp) (by simp)).1 ⟨hg.1.1, hg.2.1⟩
    ⟨hg.1.2.1, hg.2.2.1⟩]
  rfl

/-- The parameters of a fully connected line after the replacement. -/
def fullPairs (n : Nat) : List (Str × Str) := [("size".toList, pairNum (1, 1)), ("kernels".toList, num n)]

theorem fullPairs_params (n : Nat) : Params (fullPairs n) := by
  refine ⟨fun p hp => ?_, fun p hp c hc hx => ?_⟩ <;>
    simp only [fullPairs, List.mem_cons, List.not_mem_nil, or_false] at hp <;> rcases hp with rfl | rfl
  · simp
  · simp
  · exact pairNum_not hc hx
  · exact num_not hc

theorem preprocess_full (m : Method) (classes n : Nat) :
    preprocess m classes (Item.full n).text =
      .done ('?' :: joinSp ("convolutional".toList :: (fullPairs n).map pairText)) := by
  have e : (Item.full n).text = "?fullyconnected neurons=".toList ++ num n := rfl
  have e' : '?' :: joinSp ("convolutional".toList :: (fullPairs n).map pairText) =
      "?convolutional size=1x1 kernels=".toList ++ num n := by
    simp [fullPairs, joinSp, pairText, pairNum, num, Nat.toDigits_of_lt_base]
  have h1 : ¬ "(o)".toList <:+: (Item.full n).text := by
    rw [e]
    intro h
    have := h.mem (a := '(') (by simp)
    rcases List.mem_append.1 this with h | h
    · revert h; decide +kernel
    · exact num_not (by decide) h
  have h2 : replaceFirst "fullyconnected".toList "convolutional size=1x1".toList (Item.full n).text =
      some ("?convolutional size=1x1 neurons=".toList ++ num n) := by
    rw [e]; rfl
  have h3 : replaceFirst "neurons=".toList "kernels=".toList
      ("?convolutional size=1x1 neurons=".toList ++ num n) =
      some ("?convolutional size=1x1 kernels=".toList ++ num n) := rfl
  unfold preprocess
  rw [replaceFirst_none (by simp) h1, Option.getD_none]
  simp only []
  rw [h2]
  simp only []
  rw [h3, orThrow_some, Outcome.bind_done, e', if_neg]
  rw [find_none_of_not_infix (by simp)]
  · simp
  · intro h
    have := h.mem (a := 'f') (by simp)
    rcases List.mem_append.1 this with h | h
    · revert h; decide +kernel
    · exact num_not (by decide) h

/-- A fully connected line. -/
theorem addLine_full (conv : Str → D) (zero one : D) (f : Fields) (data : Conn) (classes : Nat)
    (loss : Bool) (st : State D) {n : Nat} (hn : n ≤ 2147483647) :
    addLine conv zero one f data classes loss (Item.full n).text st =
      .done (st.step zero one (.full n)) := by
  have hp := fullPairs_params n
  refine addLine_layer conv zero one f data classes loss
    (line := joinSp ("convolutional".toList :: (fullPairs n).map pairText))
    (by rw [starts_joinSp]; rfl) rfl (preprocess_full _ _ n) ?_
  refine layerLine_conv conv zero one f data (by rw [starts_joinSp]; rfl) ?_
  have hlen : ∀ p ∈ fullPairs n, p.2.length ≤ 21 := by
    intro p hp'
    simp only [fullPairs, List.mem_cons, List.not_mem_nil, or_false] at hp'
    rcases hp' with rfl | rfl
    · exact pairNum_length (by decide) (by decide)
    · have := num_length hn
      change (num n).length ≤ 21
      omega
  have c1 : ∀ old, parseKernelSize (joinSp ("convolutional".toList :: (fullPairs n).map pairText))
      "size".toList old = some (1, 1) := fun old =>
    size_read (ps := []) (qs := [("kernels".toList, num n)]) hp (by simp) hlen (by decide +kernel)
      (by decide +kernel) (by simp) (by simp) (by decide) (by decide) old
  have c2 : ∀ key, key = "stride".toList ∨ key = "pad".toList → ∀ old,
      parseKernelSize (joinSp ("convolutional".toList :: (fullPairs n).map pairText)) key old =
        some old := by
    intro key hkey old
    have hk : ' ' ∉ key := by rcases hkey with rfl | rfl <;> decide +kernel
    refine absent_size (absent hp hk (fun hi => ?_) ?_) old
    · have : '=' ∈ "convolutional".toList := hi.mem (by simp)
      revert this; decide +kernel
    · intro p hp'
      simp only [fullPairs, List.mem_cons, List.not_mem_nil, or_false] at hp'
      rcases hkey with rfl | rfl <;> rcases hp' with rfl | rfl <;> keys
  have c4 : ∀ old, parseCount (joinSp ("convolutional".toList :: (fullPairs n).map pairText))
      "kernels".toList old = some n := fun old =>
    Props.C18_count_partial ["convolutional".toList] [("size".toList, pairNum (1, 1))] [] _ _ _
      (by decide +kernel) (fun w hw => by rw [List.mem_singleton] at hw; rw [hw]; decide +kernel)
      (fun p hp' => by
        rw [List.mem_singleton] at hp'
        subst hp'
        exact ⟨by keys, pairNum_not (by decide) (by decide), by keys⟩) hn
  rw [convolutionLine_ok conv zero one c1 (c2 _ (Or.inl rfl) _) (c2 _ (Or.inr rfl) _) c4
    (param_nil hp (by simp) (by simp)).1
    (param_nil hp (by simp) (by simp)).1 (param_nil hp (by simp) (by simp)).1 (by simp) (by simp)]
  rfl

theorem layerLine_pool (conv : Str → D) (zero one : D) (f : Fields) (data : Conn) {line : Str}
    {st st' : State D} (h1 : startsWithIdentifier line "convolutional".toList = false)
    (h2 : startsWithIdentifier line "lrn".toList = false)
    (h : poolingLine line st = .done (some st')) :
    layerLine conv zero one f data false line st = .done (st', false) := by
  unfold layerLine
  rw [h1, h2, if_neg Bool.false_ne_true, if_neg Bool.false_ne_true, h]
  rfl

theorem addLine_max (conv : Str → D) (zero one : D) (f : Fields) (data : Conn) (classes : Nat)
    (loss : Bool) (st : State D) {k : Nat × Nat} (h1 : k.1 ≤ 2147483647) (h2 : k.2 ≤ 2147483647) :
    addLine conv zero one f data classes loss (Item.maxPool k).text st =
      .done (st.step zero one (.maxPool k)) := by
  obtain ⟨c1, _⟩ := pool_sizes (name := "maxpooling".toList) (stride := none) (by decide +kernel)
    (by decide +kernel) h1 h2 (by simp)
  refine addLine_layer conv zero one f data classes loss
    (line := joinSp ("maxpooling".toList :: (poolPairs k none).map pairText))
    (by rw [starts_joinSp]; rfl) rfl
    (preprocess_layer (ps := poolPairs k none) _ _ (by decide +kernel)
      (fun c hc => poolPairs_no hc k none)) ?_
  refine layerLine_pool conv zero one f data (by rw [starts_joinSp]; rfl) (by rw [starts_joinSp]; rfl) ?_
  unfold poolingLine
  rw [if_pos (by rw [starts_joinSp]; rfl), c1, Outcome.ofOption_some, Outcome.bind_done]
  rfl

theorem addLine_down (conv : Str → D) (zero one : D) (f : Fields) (data : Conn) (classes : Nat)
    (loss : Bool) (st : State D) {k : Nat × Nat} (h1 : k.1 ≤ 2147483647) (h2 : k.2 ≤ 2147483647) :
    addLine conv zero one f data classes loss (Item.down k).text st =
      .done (st.step zero one (.down k)) := by
  obtain ⟨c1, _⟩ := pool_sizes (name := "downsampling".toList) (stride := none) (by decide +kernel)
    (by decide +kernel) h1 h2 (by simp)
  refine addLine_layer conv zero one f data classes loss
    (line := joinSp ("downsampling".toList :: (poolPairs k none).map pairText))
    (by rw [starts_joinSp]; rfl) rfl
    (preprocess_layer (ps := poolPairs k none) _ _ (by decide +kernel)
      (fun c hc => poolPairs_no hc k none)) ?_
  refine layerLine_pool conv zero one f data (by rw [starts_joinSp]; rfl) (by rw [starts_joinSp]; rfl) ?_
  unfold poolingLine
  rw [if_neg (by rw [starts_joinSp]; exact Bool.false_ne_true), if_pos (by rw [starts_joinSp]; rfl), c1,
    Outcome.ofOption_some, Outcome.bind_done]
  rfl

theorem addLine_strided (conv : Str → D) (zero one : D) (f : Fields) (data : Conn) (classes : Nat)
    (loss : Bool) (st : State D) {k : Nat × Nat} {s : Option (Nat × Nat)}
    (h1 : k.1 ≤ 2147483647) (h2 : k.2 ≤ 2147483647)
    (hs : ∀ a, s = some a → a.1 ≤ 2147483647 ∧ a.2 ≤ 2147483647) :
    addLine conv zero one f data classes loss (Item.stridedPool k s).text st =
      .done (st.step zero one (.stridedPool k s)) := by
  obtain ⟨c1, c2⟩ := pool_sizes (name := "amaxpooling".toList) (stride := s) (by decide +kernel)
    (by decide +kernel) h1 h2 hs
  refine addLine_layer conv zero one f data classes loss
    (line := joinSp ("amaxpooling".toList :: (poolPairs k s).map pairText))
    (by rw [starts_joinSp]; rfl) rfl
    (preprocess_layer (ps := poolPairs k s) _ _ (by decide +kernel)
      (fun c hc => poolPairs_no hc k s)) ?_
  refine layerLine_pool conv zero one f data (by rw [starts_joinSp]; rfl) (by rw [starts_joinSp]; rfl) ?_
  unfold poolingLine
  rw [if_neg (by rw [starts_joinSp]; exact Bool.false_ne_true),
    if_neg (by rw [starts_joinSp]; exact Bool.false_ne_true), if_pos (by rw [starts_joinSp]; rfl), c1,
    Outcome.ofOption_some, Outcome.bind_done, c2, Outcome.ofOption_some, Outcome.bind_done]
  rfl

/-- The layer of an activation. -/
def Act.layer : Act → Layer D
  | .sigm => .sigmoid
  | .relu => .relu
  | .tanh => .tanh

theorem layerLine_act (conv : Str → D) (zero one : D) (f : Fields) (data : Conn) (o : Bool) (a : Act)
    (st : State D) :
    layerLine conv zero one f data o a.name st =
      .done (st.add ⟨a.layer, [st.last], o && (f.method = .patch || st.upscaled)⟩, o) := by
  have hl : ∀ id, id = "convolutional".toList ∨ id = "lrn".toList ∨ id = "maxpooling".toList ∨
      id = "downsampling".toList ∨ id = "amaxpooling".toList → startsWithIdentifier a.name id = false := by
    rintro id (rfl | rfl | rfl | rfl | rfl) <;> cases a <;> decide +kernel
  have hp : poolingLine a.name st = .done none := by
    unfold poolingLine
    rw [hl "maxpooling".toList (by simp), hl "downsampling".toList (by simp),
      hl "amaxpooling".toList (by simp)]
    rfl
  unfold layerLine
  rw [hl "convolutional".toList (by simp), hl "lrn".toList (by simp), if_neg Bool.false_ne_true,
    if_neg Bool.false_ne_true, hp]
  cases a <;> rfl

theorem addLine_act (conv : Str → D) (zero one : D) (f : Fields) (data : Conn) (classes : Nat)
    (loss : Bool) (st : State D) (a : Act) :
    addLine conv zero one f data classes loss (Item.act a).text st =
      .done (st.step zero one (.act a)) := by
  refine addLine_layer conv zero one f data classes loss (line := a.name)
    (by cases a <;> decide +kernel) (by cases a <;> rfl) (preprocess_id ?_ ?_ _ _) ?_
  · cases a <;> decide +kernel
  · cases a <;> decide +kernel
  · rw [layerLine_act]
    cases a <;> rfl

/-- Lines that are no layers and no stack operations add nothing. -/
theorem addLine_plain (conv : Str → D) (zero one : D) (f : Fields) (data : Conn) (classes : Nat)
    (loss : Bool) (st : State D) {t : Str} (h1 : ¬ ['?'] <+: t)
    (h2 : ∀ s ∈ ["pusha".toList, "pushb".toList, "popa".toList, "popb".toList], ¬ s <+: t)
    (h3 : ∀ s ∈ ["fullyconnected".toList, "(o)".toList], ¬ s <:+: t) :
    addLine conv zero one f data classes loss t st = .done st := by
  unfold addLine
  split
  · rfl
  have hpre : preprocess f.method classes t =
      .done (if f.method = .fcn ∧ (find "flatten".toList t).isSome then [] else t) := by
    unfold preprocess
    rw [replaceFirst_none (by simp) (h3 _ (by simp)), Option.getD_none]
    simp only []
    rw [replaceFirst_none (by simp) (h3 _ (by simp))]
    rfl
  rw [hpre, Outcome.bind_done]
  have key : ∀ {u : Str}, ¬ ['?'] <+: u →
      (∀ s ∈ ["pusha".toList, "pushb".toList, "popa".toList, "popb".toList], ¬ s <+: u) →
      ((outputLine conv one classes u).bind fun (o : Str × Bool × D) =>
        (stackLine o.1 st).bind fun st =>
        match o.1 with
        | '?' :: line =>
          (layerLine conv zero one f data o.2.1 line st).bind fun (r : State D × Bool) =>
          .done (addLoss loss data r.2 o.2.2 (scaleOutput f r.2 r.1))
        | _ => .done st) = .done st := by
    intro u h1 h2
    have ho : outputLine conv one classes u = .done (u, false, one) := by
      unfold outputLine
      rw [if_neg]
      intro h
      have h : "?output".toList <+: u := by simpa [startsWithIdentifier] using h
      exact h1 (List.IsPrefix.trans ⟨"output".toList, rfl⟩ h)
    have hs : stackLine u st = .done st := by
      have : ∀ s ∈ ["pusha".toList, "pushb".toList, "popa".toList, "popb".toList],
          ¬ startsWithIdentifier u s = true := fun s hs h =>
        h2 s hs (by simpa [startsWithIdentifier] using h)
      unfold stackLine
      rw [if_neg (this _ (by simp)), if_neg (this _ (by simp)), if_neg (this _ (by simp)),
        if_neg (this _ (by simp))]
    rw [ho, Outcome.bind_done]
    simp only []
    rw [hs, Outcome.bind_done]
    split
    · exact absurd ⟨_, rfl⟩ h1
    · rfl
  split
  · exact key (by simp) (by simp)
  · exact key h1 h2

theorem addLine_item (conv : Str → D) (zero one : D) (f : Fields) (data : Conn) (classes : Nat)
    (loss : Bool) (st : State D) {i : Item} (hok : i.Ok) :
    addLine conv zero one f data classes loss i.text st = .done (st.step zero one i) := by
  cases i with
  | comment t =>
    unfold addLine
    rw [if_pos (by rfl)]
    rfl
  | other t =>
    obtain ⟨h1, h2, h3⟩ := hok.1 t rfl
    exact addLine_plain conv zero one f data classes loss st h1
      (fun s hs => h2 s (by simp only [List.mem_cons, List.not_mem_nil, or_false] at hs ⊢; tauto))
      (fun s hs => h3 s (by simp only [List.mem_cons, List.not_mem_nil, or_false] at hs ⊢; tauto))
  | patches =>
    refine addLine_plain conv zero one f data classes loss st (t := "method=patch".toList) ?_ ?_ ?_
    · decide +kernel
    · decide +kernel
    · decide +kernel
  | conv n k s p => exact addLine_conv conv zero one f data classes loss st hok
  | full n => exact addLine_full conv zero one f data classes loss st (hok.2.2.1 n rfl)
  | maxPool k =>
    have h := hok.2.2.2 _ rfl
    exact addLine_max conv zero one f data classes loss st h.1.2 h.2.2
  | down k =>
    have h := hok.2.2.2 _ rfl
    exact addLine_down conv zero one f data classes loss st h.1.2 h.2.2
  | stridedPool k s =>
    have h := hok.2.2.2 _ rfl
    exact addLine_strided conv zero one f data classes loss st h.1.2.2.2.1 h.2.2.2.2.1
      (fun a ha => by subst ha; exact ⟨h.1.2.2.2.2, h.2.2.2.2.2⟩)
  | act a => exact addLine_act conv zero one f data classes loss st a

theorem addLines_items (conv : Str → D) (zero one : D) (f : Fields) (data : Conn) (classes : Nat)
    (loss : Bool) (rest : List Str) : ∀ (items : List Item), (∀ i ∈ items, i.Ok) → ∀ st : State D,
    addLines conv zero one f data classes loss (items.map Item.text ++ rest) st =
      addLines conv zero one f data classes loss rest (items.foldl (State.step zero one) st)
  | [], _, st => rfl
  | i :: is, hok, st => by
    rw [List.map_cons, List.cons_append, addLines,
      addLine_item conv zero one f data classes loss st (hok i (by simp)), Outcome.bind_done,
      addLines_items conv zero one f data classes loss rest is
        (fun j hj => hok j (List.mem_cons_of_mem _ hj))]
    rfl

/-- The activation of the output line. -/
def outputAct (classes : Nat) : Act := if classes = 1 then .tanh else .sigm

/-- The output line. -/
theorem addLine_output (conv : Str → D) (zero one : D) (f : Fields) (data : Conn) (classes : Nat)
    (loss : Bool) (st : State D) :
    addLine conv zero one f data classes loss "?output".toList st =
      .done (addLoss loss data true one (scaleOutput f true
        (st.add ⟨(outputAct classes).layer, [st.last], f.method = .patch || st.upscaled⟩))) := by
  have hp : preprocess f.method classes "?output".toList = .done "?output".toList :=
    preprocess_id (by decide +kernel) (by decide +kernel) _ _
  have hf : find ("weight".toList ++ ['=']) "?output".toList = none := by decide +kernel
  have ho : outputLine conv one classes "?output".toList =
      .done ('?' :: (outputAct classes).name, true, one) := by
    unfold outputLine
    rw [if_pos (by decide +kernel), absent_datum hf, Outcome.ofOption_some, Outcome.bind_done]
    unfold outputAct
    split <;> rfl
  have hs : stackLine ('?' :: (outputAct classes).name) st = .done st := by
    unfold stackLine startsWithIdentifier
    rw [if_neg (by simp), if_neg (by simp), if_neg (by simp), if_neg (by simp)]
  unfold addLine
  rw [if_neg (by decide +kernel), hp, Outcome.bind_done, ho, Outcome.bind_done]
  simp only []
  rw [hs, Outcome.bind_done, layerLine_act, Outcome.bind_done, Bool.true_and]

/-! ### Sizes -/

theorem shapes_append (data base : Nat) (ds : List Shape) (ms : List (NewNode D)) :
    ∀ (ns : List (NewNode D)) (known : List (List Shape)),
    shapes data base ds (ns ++ ms) known =
      (shapes data base ds ns known).bind fun k => shapes data base ds ms k
  | [], known => rfl
  | n :: ns, known => by
    rw [List.cons_append, shapes, shapes]
    cases sources data base ds known n.inputs with
    | done ins =>
      simp only [Outcome.bind_done]
      cases n.layer.outputs ins with
      | done outs => simp only [Outcome.bind_done]; exact shapes_append data base ds ms ns _
      | fatal => rfl
      | undefined => rfl
    | fatal => rfl
    | undefined => rfl

/-- What is known about the net so far: all shapes are determined, and the current connection has
shape `sh`. -/
structure Sized (data base : Nat) (ds : List Shape) (st : State D) (known : List (List Shape))
    (sh : Shape) : Prop where
  hbase : st.base = base
  hshapes : shapes data base ds st.nodes [] = .done known
  length : known.length = st.nodes.length
  last : source data base ds known st.last = .done sh

theorem Sized.add {data base : Nat} {ds : List Shape} {st : State D} {known : List (List Shape)}
    {sh sh' : Shape} (h : Sized data base ds st known sh) (hb : data < base) {l : Layer D} {o bp : Bool}
    (hl : l.outputs [sh] = .done [sh']) :
    Sized data base ds (st.add ⟨l, [st.last], o⟩ bp) (known ++ [[sh']]) sh' := by
  refine ⟨h.hbase, ?_, ?_, ?_⟩
  · change shapes data base ds (st.nodes ++ [_]) [] = _
    rw [shapes_append, h.hshapes, Outcome.bind_done, shapes, sources, h.last]
    simp only [Outcome.bind_done, sources, hl]
    rfl
  · simp [State.add, h.length]
  · unfold State.add source
    simp only [h.hbase]
    rw [if_neg (by omega), if_pos (by omega), ← h.length]
    simp [Outcome.ofOption]

theorem count_unique {w n : Nat} (h : ∀ q, q < w ↔ q < n) : w = n := by
  rcases Nat.lt_trichotomy w n with h' | h' | h'
  · exact absurd ((h w).2 h') (by omega)
  · exact h'
  · exact absurd ((h n).1 h') (by omega)

/-- The number of windows. -/
theorem window_count {k s p n : Nat} (hs : 0 < s) (hp : 2 * p < k) (q : Nat) :
    q * s + k ≤ k - 1 - 2 * p + s * n + 2 * p ↔ q < n := by
  have e : q * s + k ≤ k - 1 - 2 * p + s * n + 2 * p ↔ s * q < s * n := by
    rw [Nat.mul_comm q s]
    generalize s * q = a
    generalize s * n = b
    omega
  rw [e]
  exact Nat.mul_lt_mul_left hs

theorem conv_outputs {m n k1 k2 s1 s2 p1 p2 nx ny ss : Nat} (hx : (Geo.window k1 s1 p1).Ok)
    (hy : (Geo.window k2 s2 p2).Ok) (hnx : 0 < nx) (hny : 0 < ny)
    (bx : k1 - 1 - 2 * p1 + s1 * nx < 2147483648) (by' : k2 - 1 - 2 * p2 + s2 * ny < 2147483648)
    (draw : Nat) (zero one : D) :
    (Layer.conv ⟨n, k1, k2, s1, s2, p1, p2, 1⟩ draw zero one).outputs
      [⟨ss, k1 - 1 - 2 * p1 + s1 * nx, k2 - 1 - 2 * p2 + s2 * ny, m⟩] = .done [⟨ss, nx, ny, n⟩] := by
  obtain ⟨a1, a2, a3, a4, a5⟩ := hx
  obtain ⟨b1, b2, b3, b4, b5⟩ := hy
  have h := Props.C36_convolution ⟨n, k1, k2, s1, s2, p1, p2, 1⟩ (k1 - 1 - 2 * p1 + s1 * nx)
    (k2 - 1 - 2 * p2 + s2 * ny) m ⟨a2, b2⟩ (by simp) (by simp)
    (by dsimp only; omega) (by dsimp only; omega)
  simp only [] at h
  have fx : k1 ≤ k1 - 1 - 2 * p1 + s1 * nx + 2 * p1 := by
    have := Nat.mul_pos a2 hnx
    generalize s1 * nx = t at *
    omega
  have fy : k2 ≤ k2 - 1 - 2 * p2 + s2 * ny + 2 * p2 := by
    have := Nat.mul_pos b2 hny
    generalize s2 * ny = t at *
    omega
  rcases h with ⟨_, _, w, h, e, hw, hh⟩ | ⟨h, _⟩
  · have ew : w = nx := count_unique fun q => (hw q).trans (window_count a2 a3 q)
    have eh : h = ny := count_unique fun q => (hh q).trans (window_count b2 b3 q)
    unfold Layer.outputs
    simp only [e, Outcome.bind_done, ew, eh]
  · exact absurd ⟨fx, fy⟩ h

theorem tile_outputs {k1 k2 nx ny w h : Nat} (hk1 : 0 < k1) (hk2 : 0 < k2) (hw : w = 0 + k1 * nx)
    (hh : h = 0 + k2 * ny) : Pooling.createOutputs k1 k2 w h = .done (some (nx, ny)) := by
  rw [(Props.C36_max_pooling k1 k2 w h hk1 hk2).1]
  constructor
  · rw [hw, Nat.mul_comm]; omega
  · rw [hh, Nat.mul_comm]; omega

/-- One line makes the input of the needed size into the wanted output. -/
theorem item_outputs {i : Item} (hok : i.Ok) {g : Geo × Geo} (hg : i.geo = some g) {nx ny ss m : Nat}
    (hnx : 0 < nx) (hny : 0 < ny) (bx : g.1.extra + g.1.factor * nx < 2147483648)
    (by' : g.2.extra + g.2.factor * ny < 2147483648) (zero one : D) (draw : Nat) :
    ∃ l, i.layer zero one draw = some l ∧
      l.1.outputs [⟨ss, g.1.extra + g.1.factor * nx, g.2.extra + g.2.factor * ny, m⟩] =
        .done [⟨ss, nx, ny, i.maps m⟩] := by
  obtain ⟨gx, gy⟩ := hok.2.2.2 g hg
  cases i with
  | comment t => simp [Item.geo] at hg
  | other t => simp [Item.geo] at hg
  | patches => simp [Item.geo] at hg
  | act a => simp [Item.geo] at hg
  | conv n k s p =>
    obtain rfl := Option.some.inj hg
    exact ⟨_, rfl, conv_outputs gx gy hnx hny bx by' draw zero one⟩
  | full n =>
    obtain rfl := Option.some.inj hg
    exact ⟨_, rfl, conv_outputs gx gy hnx hny bx by' draw zero one⟩
  | maxPool k =>
    obtain rfl := Option.some.inj hg
    refine ⟨_, rfl, ?_⟩
    unfold Layer.outputs
    simp only [tile_outputs (nx := nx) (ny := ny) gx.1 gy.1 rfl rfl, Geo.extra, Geo.factor,
      Outcome.bind_done]
    rfl
  | down k =>
    obtain rfl := Option.some.inj hg
    refine ⟨_, rfl, ?_⟩
    unfold Layer.outputs
    simp only [tile_outputs (nx := nx) (ny := ny) gx.1 gy.1 rfl rfl, Geo.extra, Geo.factor,
      Outcome.bind_done]
    rfl
  | stridedPool k s =>
    obtain rfl := Option.some.inj hg
    refine ⟨_, rfl, ?_⟩
    obtain ⟨a1, a2, a3, a4, a5⟩ := gx
    obtain ⟨b1, b2, b3, b4, b5⟩ := gy
    have hx := Nat.mul_pos a2 hnx
    have hy := Nat.mul_pos b2 hny
    obtain ⟨ow, oh, e, hw, hh⟩ := Props.C36_strided_pooling_partial k.1 k.2 (s.getD k).1 (s.getD k).2
      (k.1 - 1 - 2 * 0 + (s.getD k).1 * nx) (k.2 - 1 - 2 * 0 + (s.getD k).2 * ny) ⟨a2, b2⟩
      (by generalize (s.getD k).1 * nx = t at *; generalize (s.getD k).2 * ny = u at *; omega)
    have ew : ow = nx := count_unique fun q => (hw q).trans (window_count (p := 0) a2 a3 q)
    have eh : oh = ny := count_unique fun q => (hh q).trans (window_count (p := 0) b2 b3 q)
    unfold Layer.outputs
    simp only [e, Geo.extra, Geo.factor, Outcome.bind_done, ew, eh]
    rw [if_neg (by omega)]
    simp [Item.maps]

theorem field_pos {gs : List Geo} (h : ∀ g ∈ gs, g.Ok) {n : Nat} (hn : 0 < n) :
    0 < field gs + total gs * n := by
  have := Nat.mul_pos (total_pos h) hn
  omega

/-- The state keeps the rest. -/
theorem step_fields (zero one : D) (st : State D) (i : Item) :
    (st.step zero one i).upscaled = st.upscaled ∧ (st.step zero one i).base = st.base ∧
    ((∀ n ∈ st.nodes, n.isOutput = false) → ∀ n ∈ (st.step zero one i).nodes, n.isOutput = false) := by
  unfold State.step
  split
  · exact ⟨rfl, rfl, id⟩
  · refine ⟨rfl, rfl, fun h n hn => ?_⟩
    simp only [State.add, List.mem_append, List.mem_singleton] at hn
    rcases hn with hn | rfl
    · exact h n hn
    · rfl

theorem steps_fields (zero one : D) (items : List Item) : ∀ st : State D,
    (items.foldl (State.step zero one) st).upscaled = st.upscaled ∧
    (items.foldl (State.step zero one) st).base = st.base ∧
    ((∀ n ∈ st.nodes, n.isOutput = false) →
      ∀ n ∈ (items.foldl (State.step zero one) st).nodes, n.isOutput = false) := by
  induction items with
  | nil => exact fun st => ⟨rfl, rfl, id⟩
  | cons i is ih =>
    intro st
    obtain ⟨a1, a2, a3⟩ := ih (st.step zero one i)
    obtain ⟨b1, b2, b3⟩ := step_fields zero one st i
    exact ⟨a1.trans b1, a2.trans b2, fun h => a3 (b3 h)⟩

theorem steps_sized {data base : Nat} {ds : List Shape} (hb : data < base) (zero one : D) {nx ny ss : Nat}
    (hnx : 0 < nx) (hny : 0 < ny) : ∀ (items : List Item), (∀ i ∈ items, i.Ok) →
    ∀ {st : State D} {known : List (List Shape)} {m : Nat},
    field (geoX items) + total (geoX items) * nx < 2147483648 →
    field (geoY items) + total (geoY items) * ny < 2147483648 →
    Sized data base ds st known ⟨ss, field (geoX items) + total (geoX items) * nx,
      field (geoY items) + total (geoY items) * ny, m⟩ →
    ∃ known', Sized data base ds (items.foldl (State.step zero one) st) known'
      ⟨ss, nx, ny, mapsOf items m⟩
  | [], _, st, known, m, _, _, h => by
    refine ⟨known, ?_⟩
    simpa [geoX, geoY, field, total, mapsOf] using h
  | i :: is, hok, st, known, m, bx, by', h => by
    have hi := hok i (by simp)
    have his : ∀ j ∈ is, j.Ok := fun j hj => hok j (List.mem_cons_of_mem _ hj)
    have px := field_pos (geoX_ok his) hnx
    have py := field_pos (geoY_ok his) hny
    rw [geoX_cons, field_append, total_append, Nat.mul_assoc, Nat.add_assoc, ← Nat.mul_add] at bx h
    rw [geoY_cons, field_append, total_append, Nat.mul_assoc, Nat.add_assoc, ← Nat.mul_add] at by' h
    generalize hX : field (geoX is) + total (geoX is) * nx = X at *
    generalize hY : field (geoY is) + total (geoY is) * ny = Y at *
    have tx := total_pos (Item.gx_ok hi)
    have ty := total_pos (Item.gy_ok hi)
    have lx : X < 2147483648 := by
      have := Nat.le_mul_of_pos_left X tx
      omega
    have ly : Y < 2147483648 := by
      have := Nat.le_mul_of_pos_left Y ty
      omega
    have hstep : ∃ known', Sized data base ds (st.step zero one i) known' ⟨ss, X, Y, i.maps m⟩ := by
      cases hg : i.geo with
      | none =>
        have ex : i.gx = [] := by unfold Item.gx; rw [hg]; rfl
        have ey : i.gy = [] := by unfold Item.gy; rw [hg]; rfl
        rw [ex, ey] at h
        simp only [field, total, Nat.zero_add, Nat.one_mul] at h
        have hm : i.maps m = m := by cases i <;> first | rfl | simp [Item.geo] at hg
        rw [hm]
        unfold State.step
        split
        · exact ⟨known, h⟩
        · rename_i l hl
          have ho : l.1.outputs [⟨ss, X, Y, m⟩] = .done [⟨ss, X, Y, m⟩] := by
            cases i with
            | act a => cases a <;> (obtain rfl := Option.some.inj hl; rfl)
            | comment t => simp [Item.layer] at hl
            | other t => simp [Item.layer] at hl
            | patches => simp [Item.layer] at hl
            | _ => simp [Item.geo] at hg
          obtain ⟨h1, h2, h3, h4⟩ := h.add hb (o := false) (bp := l.2) ho
          exact ⟨_, h1, h2, h3, h4⟩
      | some g =>
        have ex : i.gx = [g.1] := by unfold Item.gx; rw [hg]; rfl
        have ey : i.gy = [g.2] := by unfold Item.gy; rw [hg]; rfl
        rw [ex, ey] at h
        rw [ex] at bx
        rw [ey] at by'
        simp only [field, total, Nat.mul_zero, Nat.add_zero, Nat.mul_one] at h bx by'
        obtain ⟨l, hl, ho⟩ := item_outputs (ss := ss) (m := m) hi hg px py bx by' zero one st.draws
        unfold State.step
        rw [hl]
        obtain ⟨h1, h2, h3, h4⟩ := h.add hb (o := false) (bp := l.2) ho
        exact ⟨_, h1, h2, h3, h4⟩
    obtain ⟨known', h'⟩ := hstep
    rw [← hX, ← hY] at h'
    exact steps_sized hb zero one hnx hny is his (hX ▸ lx) (hY ▸ ly) h'

/-! ### The whole net -/

/-- Exactly one node is marked as output, and its output has shape `sh`. -/
def OutputShape (nodes : List (NewNode D)) (known : List (List Shape)) (sh : Shape) : Prop :=
  ∃ i, i < nodes.length ∧ (∀ (j : Nat) (n : NewNode D), nodes[j]? = some n → (n.isOutput = true ↔ j = i)) ∧
    known[i]? = some [sh]

theorem OutputShape.last {nodes : List (NewNode D)} {known : List (List Shape)} {sh : Shape}
    {n : NewNode D} (hn : n.isOutput = true) (h : ∀ m ∈ nodes, m.isOutput = false)
    (hl : known.length = nodes.length) : OutputShape (nodes ++ [n]) (known ++ [[sh]]) sh := by
  refine ⟨nodes.length, by simp, fun j m hj => ?_, by rw [← hl]; simp⟩
  rw [List.getElem?_append] at hj
  split at hj
  · rename_i hlt
    have hm := h m (List.mem_of_getElem? hj)
    constructor
    · intro e; rw [hm] at e; cases e
    · intro e; omega
  · rename_i hge
    have hj0 : j = nodes.length := by
      rcases Nat.lt_or_ge (j - nodes.length) 1 with h' | h'
      · omega
      · rw [List.getElem?_eq_none (by simpa using h')] at hj; cases hj
    subst hj0
    simp only [Nat.sub_self, List.getElem?_cons_zero] at hj
    obtain rfl := Option.some.inj hj
    exact ⟨fun _ => rfl, fun _ => hn⟩

theorem OutputShape.snoc {nodes : List (NewNode D)} {known : List (List Shape)} {sh : Shape}
    (h : OutputShape nodes known sh) {n : NewNode D} (hn : n.isOutput = false) (o : List Shape) :
    OutputShape (nodes ++ [n]) (known ++ [o]) sh := by
  obtain ⟨i, hi, hu, hk⟩ := h
  refine ⟨i, by rw [List.length_append]; omega, fun j m hj => ?_, ?_⟩
  · rw [List.getElem?_append] at hj
    split at hj
    · exact hu j m hj
    · rename_i hge
      have : m = n := by
        have := List.mem_of_getElem? hj
        simpa using this
      subst this
      constructor
      · intro e; rw [hn] at e; cases e
      · intro e; omega
  · rw [List.getElem?_append_left]
    · exact hk
    · obtain ⟨h', _⟩ := List.getElem?_eq_some_iff.1 hk
      exact h'

theorem act_outputs (a : Act) (sh : Shape) : (a.layer : Layer D).outputs [sh] = .done [sh] := by
  cases a <;> rfl

/-- The conditions on label and weight tensors of a net with a loss. -/
def LossFits (loss : Bool) (ds : List Shape) (sh : Shape) : Prop :=
  loss = true → ∃ label weight, ds[1]? = some label ∧ ds[3]? = some weight ∧
    ErrorLayer.accepts sh label weight = true

/-- The output node has been added as the last one. -/
theorem loss_final {data : Conn} {base : Nat} {ds : List Shape} {loss : Bool} {one : D} {st : State D}
    {known : List (List Shape)} {sh : Shape} (hs : Sized data.node base ds st known sh)
    (hbuf : st.last.buffer = 0) (ho : OutputShape st.nodes known sh) (hl : LossFits loss ds sh) :
    ∃ known', shapes data.node base ds (addLoss loss data true one st).nodes [] = .done known' ∧
      OutputShape (addLoss loss data true one st).nodes known' sh := by
  unfold addLoss
  cases loss with
  | false => exact ⟨known, by simpa using hs.hshapes, by simpa using ho⟩
  | true =>
    obtain ⟨label, weight, h1, h2, h3⟩ := hl rfl
    rw [if_pos ⟨rfl, rfl⟩]
    refine ⟨known ++ [[]], ?_, ho.snoc rfl []⟩
    simp only []
    rw [shapes_append, hs.hshapes, Outcome.bind_done, shapes]
    have e : source data.node base ds known ⟨st.last.node, 0, true⟩ = .done sh := by
      have := hs.last
      unfold source at this ⊢
      rw [hbuf] at this
      exact this
    have e1 : source data.node base ds known { data with buffer := 1 } = .done label := by
      unfold source; simp [h1]
    have e2 : source data.node base ds known { data with buffer := 3 } = .done weight := by
      unfold source; simp [h2]
    simp only [sources, e, e1, e2, Outcome.bind_done, Layer.outputs, h3, if_true, shapes]

/-- The output line of a net. -/
theorem output_final (conv : Str → D) (zero one : D) {f : Fields} {data : Conn} {base : Nat}
    {ds : List Shape} {classes : Nat} {loss : Bool} {st : State D} {known : List (List Shape)}
    {ss nx ny m fx fy : Nat} (hb : data.node < base)
    (hs : Sized data.node base ds st known ⟨ss, nx, ny, m⟩)
    (hn : ∀ n ∈ st.nodes, n.isOutput = false)
    (hfx : f.factorx = fx) (hfy : f.factory = fy) (bx : fx ≤ 2147483647) (by' : fy ≤ 2147483647)
    (hu : st.upscaled = (decide (f.factorx = 1) && decide (f.factory = 1)))
    (hl : LossFits loss ds
      (if f.method = .patch then ⟨ss, nx, ny, m⟩ else ⟨ss, nx * fx, ny * fy, m⟩)) :
    ∃ st' known', addLines conv zero one f data classes loss ["?output".toList] st = .done st' ∧
      shapes data.node base ds st'.nodes [] = .done known' ∧
      OutputShape st'.nodes known'
        (if f.method = .patch then ⟨ss, nx, ny, m⟩ else ⟨ss, nx * fx, ny * fy, m⟩) := by
  have hline : ∀ r, addLine conv zero one f data classes loss "?output".toList st = .done r →
      addLines conv zero one f data classes loss ["?output".toList] st = .done r := by
    intro r h
    unfold addLines
    rw [h]; rfl
  rw [addLine_output] at hline
  generalize ho : (decide (f.method = Method.patch) || st.upscaled) = o at hline
  have h1 := hs.add hb (o := o) (bp := true) (act_outputs (outputAct classes) ⟨ss, nx, ny, m⟩)
  cases hm : f.method with
  | patch =>
    rw [hm] at hl
    have ho' : o = true := by rw [← ho]; simp [hm]
    subst ho'
    have hsc : ∀ t : State D, scaleOutput f true t = t := by
      intro t; unfold scaleOutput; rw [if_neg (by simp [hm])]
    rw [hsc] at hline
    obtain ⟨known', k1, k2⟩ := loss_final (one := one) h1 rfl
      (OutputShape.last rfl hn hs.length) hl
    exact ⟨_, known', hline _ rfl, k1, k2⟩
  | fcn =>
    rw [hm] at hl
    by_cases hone : fx = 1 ∧ fy = 1
    · obtain ⟨rfl, rfl⟩ := hone
      have hup : st.upscaled = true := by rw [hu, hfx, hfy]; simp
      have ho' : o = true := by rw [← ho, hup]; simp
      subst ho'
      have hsc : ∀ t : State D, scaleOutput f true t = t := by
        intro t; unfold scaleOutput; rw [if_neg (by simp [hfx, hfy])]
      rw [hsc] at hline
      simp only [Nat.mul_one] at hl ⊢
      obtain ⟨known', k1, k2⟩ := loss_final (one := one) h1 rfl
        (OutputShape.last rfl hn hs.length) hl
      exact ⟨_, known', hline _ rfl, k1, k2⟩
    · have hup : st.upscaled = false := by
        rw [hu, hfx, hfy, Bool.and_eq_false_iff, decide_eq_false_iff_not, decide_eq_false_iff_not]
        omega
      have ho' : o = false := by rw [← ho, hup, hm]; rfl
      subst ho'
      have hsc : ∀ t : State D, t.upscaled = false → scaleOutput f true t =
          t.add ⟨upscaleBy f, [t.last], true⟩ := by
        intro t ht; unfold scaleOutput
        rw [if_pos]
        rw [ht, hfx, hfy, hm]
        refine ⟨rfl, rfl, rfl, ?_⟩
        omega
      rw [hsc (st.add ⟨(outputAct classes).layer, [st.last], false⟩) hup] at hline
      have hup' : (upscaleBy f : Layer D).outputs [⟨ss, nx, ny, m⟩] = .done [⟨ss, nx * fx, ny * fy, m⟩] := by
        unfold upscaleBy Layer.outputs
        rw [hfx, hfy, Props.toUInt_natCast bx, Props.toUInt_natCast by']
      have h2 := h1.add hb (o := true) (bp := true) hup'
      obtain ⟨known', k1, k2⟩ := loss_final (one := one) h2 rfl
        (OutputShape.last rfl (by
          intro n hn'
          simp only [State.add, List.mem_append, List.mem_singleton] at hn'
          rcases hn' with hn' | rfl
          · exact hn n hn'
          · rfl) h1.length) hl
      exact ⟨_, known', hline _ rfl, k1, k2⟩

/-- The start without a border. -/
theorem start_plain {f : Fields} {data : Conn} {base : Nat} {ds : List Shape} {sh : Shape}
    (h : ¬ (f.method = .fcn ∧ 0 < f.rfx ∧ 0 < f.rfy)) (hd : ds[data.buffer]? = some sh) :
    Sized data.node base ds (start f data base : State D) [] sh ∧
    (start f data base : State D).upscaled = (decide (f.factorx = 1) && decide (f.factory = 1)) ∧
    ∀ n ∈ (start f data base : State D).nodes, n.isOutput = false := by
  unfold start
  rw [if_neg h]
  refine ⟨⟨rfl, rfl, rfl, ?_⟩, rfl, by simp⟩
  unfold source
  simp [hd]

/-- The start with a border. -/
theorem start_border {f : Fields} {data : Conn} {base bx by' : Nat} {ds : List Shape}
    {ss w h m : Nat} (hb : data.node < base) (hm : f.method = .fcn) (hx : f.rfx = bx) (hy : f.rfy = by')
    (px : 0 < bx) (py : 0 < by') (hd : ds[data.buffer]? = some ⟨ss, w, h, m⟩) :
    ∃ known, Sized data.node base ds (start f data base : State D) known ⟨ss, w + bx, h + by', m⟩ ∧
    (start f data base : State D).upscaled = (decide (f.factorx = 1) && decide (f.factory = 1)) ∧
    ∀ n ∈ (start f data base : State D).nodes, n.isOutput = false := by
  unfold start
  rw [if_pos ⟨hm, by omega, by omega⟩]
  have h0 : Sized data.node base ds (⟨base, [], data, [], [],
      decide (f.factorx = 1) && decide (f.factory = 1), 0⟩ : State D) [] ⟨ss, w, h, m⟩ := by
    refine ⟨rfl, rfl, rfl, ?_⟩
    unfold source
    simp [hd]
  refine ⟨_, h0.add hb (o := false) (bp := false) (l := .resize f.rfx.toNat f.rfy.toNat) ?_, rfl, ?_⟩
  · rw [hx, hy]; rfl
  · intro n hn
    simp only [State.add, List.nil_append, List.mem_singleton] at hn
    rw [hn]

/-! ### Stacks -/

theorem bind_eq_done {α β : Type _} {o : Outcome α} {f : α → Outcome β} {b : β}
    (h : o.bind f = .done b) : ∃ a, o = .done a ∧ f a = .done b := by
  cases o with
  | done a => exact ⟨a, rfl, h⟩
  | fatal => cases h
  | undefined => cases h

/-- The state keeps its stacks. -/
def SameStacks (st st' : State D) : Prop := st'.stackA = st.stackA ∧ st'.stackB = st.stackB

theorem add_same (st : State D) (n : NewNode D) (bp : Bool) : SameStacks st (st.add n bp) := ⟨rfl, rfl⟩

theorem convolutionLine_same {conv : Str → D} {zero one : D} {line : Str} {st st' : State D}
    (h : convolutionLine conv zero one line st = .done st') : SameStacks st st' := by
  unfold convolutionLine at h
  obtain ⟨_, _, h⟩ := bind_eq_done h
  obtain ⟨_, _, h⟩ := bind_eq_done h
  obtain ⟨_, _, h⟩ := bind_eq_done h
  obtain ⟨_, _, h⟩ := bind_eq_done h
  obtain ⟨_, _, h⟩ := bind_eq_done h
  obtain ⟨_, _, h⟩ := bind_eq_done h
  obtain ⟨_, _, h⟩ := bind_eq_done h
  obtain ⟨_, _, h⟩ := bind_eq_done h
  obtain rfl := Outcome.done.inj h
  exact ⟨rfl, rfl⟩

theorem lrnLine_same {conv : Str → D} {one : D} {line : Str} {st st' : State D}
    (h : lrnLine conv one line st = .done st') : SameStacks st st' := by
  unfold lrnLine at h
  obtain ⟨_, _, h⟩ := bind_eq_done h
  obtain ⟨_, _, h⟩ := bind_eq_done h
  obtain ⟨_, _, h⟩ := bind_eq_done h
  obtain ⟨_, _, h⟩ := bind_eq_done h
  obtain ⟨_, _, h⟩ := bind_eq_done h
  obtain rfl := Outcome.done.inj h
  exact ⟨rfl, rfl⟩

theorem poolingLine_same {line : Str} {st st' : State D}
    (h : poolingLine line st = .done (some st')) : SameStacks st st' := by
  unfold poolingLine at h
  split at h
  · obtain ⟨_, _, h⟩ := bind_eq_done h
    obtain rfl := Option.some.inj (Outcome.done.inj h)
    exact ⟨rfl, rfl⟩
  split at h
  · obtain ⟨_, _, h⟩ := bind_eq_done h
    obtain rfl := Option.some.inj (Outcome.done.inj h)
    exact ⟨rfl, rfl⟩
  split at h
  · obtain ⟨_, _, h⟩ := bind_eq_done h
    obtain ⟨_, _, h⟩ := bind_eq_done h
    obtain rfl := Option.some.inj (Outcome.done.inj h)
    exact ⟨rfl, rfl⟩
  · cases Outcome.done.inj h

theorem activationLine_same {conv : Str → D} {zero one : D} {m : Method} {o : Bool} {line : Str}
    {st st' : State D} (h : activationLine conv zero one m o line st = .done (some st')) :
    SameStacks st st' := by
  unfold activationLine at h
  simp only [] at h
  split at h
  · obtain rfl := Option.some.inj (Outcome.done.inj h)
    exact ⟨rfl, rfl⟩
  split at h
  · obtain ⟨_, _, h⟩ := bind_eq_done h
    obtain ⟨_, _, h⟩ := bind_eq_done h
    obtain rfl := Option.some.inj (Outcome.done.inj h)
    exact ⟨rfl, rfl⟩
  split at h
  · obtain rfl := Option.some.inj (Outcome.done.inj h)
    exact ⟨rfl, rfl⟩
  split at h
  · obtain rfl := Option.some.inj (Outcome.done.inj h)
    exact ⟨rfl, rfl⟩
  · cases Outcome.done.inj h

theorem joinLine_same {f : Fields} {data : Conn} {o : Bool} {line : Str} {st : State D}
    {r : State D × Bool} (h : joinLine f data o line st = .done r) : SameStacks st r.1 := by
  unfold joinLine at h
  split at h
  · obtain rfl := Outcome.done.inj h
    unfold spatialLine
    simp only []
    split <;> exact ⟨rfl, rfl⟩
  split at h
  · obtain ⟨_, _, h⟩ := bind_eq_done h
    obtain rfl := Outcome.done.inj h
    exact ⟨rfl, rfl⟩
  split at h
  · obtain ⟨_, _, h⟩ := bind_eq_done h
    obtain rfl := Outcome.done.inj h
    exact ⟨rfl, rfl⟩
  split at h
  · obtain ⟨_, _, h⟩ := bind_eq_done h
    obtain ⟨_, _, h⟩ := bind_eq_done h
    obtain rfl := Outcome.done.inj h
    exact ⟨rfl, rfl⟩
  · obtain rfl := Outcome.done.inj h
    exact ⟨rfl, rfl⟩

theorem layerLine_same {conv : Str → D} {zero one : D} {f : Fields} {data : Conn} {o : Bool} {line : Str}
    {st : State D} {r : State D × Bool}
    (h : layerLine conv zero one f data o line st = .done r) : SameStacks st r.1 := by
  unfold layerLine at h
  split at h
  · obtain ⟨st', h1, h⟩ := bind_eq_done h
    obtain rfl := Outcome.done.inj h
    exact convolutionLine_same h1
  split at h
  · obtain ⟨st', h1, h⟩ := bind_eq_done h
    obtain rfl := Outcome.done.inj h
    exact lrnLine_same h1
  obtain ⟨p, h1, h⟩ := bind_eq_done h
  cases p with
  | some st' =>
    obtain rfl := Outcome.done.inj h
    exact poolingLine_same h1
  | none =>
    obtain ⟨a, h2, h⟩ := bind_eq_done h
    cases a with
    | some st' =>
      obtain rfl := Outcome.done.inj h
      exact activationLine_same h2
    | none => exact joinLine_same h

/-- A replacement changes no prefix without the first characters of both texts. -/
theorem replaceFirst_prefix {pat text line line' p : Str} {c : Char} {ts : Str}
    (h : replaceFirst pat text line = some line') (ht : text = c :: ts) (hc : c ∉ p)
    (hp : p <+: line') : p <+: line := by
  unfold replaceFirst at h
  rw [Option.map_eq_some_iff] at h
  obtain ⟨pos, _, rfl⟩ := h
  rw [List.append_assoc] at hp
  rcases Nat.le_total p.length (line.take pos).length with hl | hl
  · have := List.prefix_of_prefix_length_le hp (List.prefix_append _ _) hl
    exact this.trans (List.take_prefix _ _)
  · have := List.prefix_of_prefix_length_le (List.prefix_append (line.take pos) _) hp hl
    obtain ⟨q, rfl⟩ := this
    rw [List.prefix_append_right_inj] at hp
    cases q with
    | nil =>
      rw [List.append_nil]
      exact List.take_prefix _ _
    | cons d q =>
      rw [ht, List.cons_append, List.cons_prefix_cons] at hp
      exact absurd (by rw [hp.1]; simp) hc

/-- The stack words do not appear at the beginning of a line by the replacements. -/
theorem preprocess_prefix {m : Method} {classes : Nat} {line line' p : Str}
    (h : preprocess m classes line = .done line') (hp : p ≠ []) (hd : ∀ c ∈ p, c.isDigit = false)
    (hc : 'c' ∉ p ∧ 'k' ∉ p) (hpre : p <+: line') : p <+: line := by
  unfold preprocess at h
  simp only [] at h
  obtain ⟨l2, h2, h⟩ := bind_eq_done h
  have e := Outcome.done.inj h
  have hp2 : p <+: l2 := by
    split at e
    · rw [← e] at hpre
      exact absurd (List.prefix_nil.1 hpre) hp
    · rw [e]; exact hpre
  have hp1 : p <+: (replaceFirst "(o)".toList (digitsOf classes) line).getD line := by
    generalize (replaceFirst "(o)".toList (digitsOf classes) line).getD line = l1 at h2
    split at h2
    · obtain rfl := Outcome.done.inj h2
      exact hp2
    · rename_i l3 h3
      rw [orThrow_eq_done] at h2
      have := replaceFirst_prefix (c := 'k') (ts := "ernels=".toList) h2 rfl hc.2 hp2
      exact replaceFirst_prefix (c := 'c') (ts := "onvolutional size=1x1".toList) h3 rfl hc.1 this
  cases hr : replaceFirst "(o)".toList (digitsOf classes) line with
  | none => rw [hr] at hp1; exact hp1
  | some l1 =>
    rw [hr, Option.getD_some] at hp1
    obtain ⟨c, ts, ht⟩ := List.exists_cons_of_ne_nil (digitsOf_ne_nil classes)
    refine replaceFirst_prefix hr ht (fun hm => ?_) hp1
    have h1 := hd c hm
    have h2 := digitsOf_isDigit (n := classes) (c := c) (by rw [ht]; simp)
    rw [h1] at h2
    cases h2

theorem outputLine_stack {conv : Str → D} {one : D} {classes : Nat} {line : Str} {o : Str × Bool × D}
    (h : outputLine conv one classes line = .done o) : o.1 = line ∨ ∃ l, o.1 = '?' :: l := by
  unfold outputLine at h
  split at h
  · obtain ⟨_, _, h⟩ := bind_eq_done h
    obtain rfl := Outcome.done.inj h
    right
    simp only []
    split <;> exact ⟨_, rfl⟩
  · obtain rfl := Outcome.done.inj h
    exact Or.inl rfl

/-- Lines that do not begin with one of the stack words. -/
def NoStack (line : Str) : Prop :=
  ∀ s ∈ ["pusha".toList, "pushb".toList, "popa".toList, "popb".toList], s.isPrefixOf line = false

theorem stackLine_none {line : Str} (h : NoStack line) (st : State D) : stackLine line st = .done st := by
  have : ∀ s ∈ ["pusha".toList, "pushb".toList, "popa".toList, "popb".toList],
      ¬ startsWithIdentifier line s = true := fun s hs e => by
    unfold startsWithIdentifier at e; rw [h s hs] at e; cases e
  unfold stackLine
  rw [if_neg (this _ (by simp)), if_neg (this _ (by simp)), if_neg (this _ (by simp)),
    if_neg (this _ (by simp))]

/-- Other lines leave the stacks alone. -/
theorem addLine_same {conv : Str → D} {zero one : D} {f : Fields} {data : Conn} {classes : Nat}
    {loss : Bool} {line : Str} {st st' : State D} (hn : NoStack line)
    (h : addLine conv zero one f data classes loss line st = .done st') : SameStacks st st' := by
  unfold addLine at h
  split at h
  · obtain rfl := Outcome.done.inj h
    exact ⟨rfl, rfl⟩
  obtain ⟨line', h1, h⟩ := bind_eq_done h
  obtain ⟨o, h2, h⟩ := bind_eq_done h
  have hn' : NoStack line' := by
    intro s hs
    rw [Bool.eq_false_iff]
    intro hpre
    have := preprocess_prefix h1 (p := s) (by
        simp only [List.mem_cons, List.not_mem_nil, or_false] at hs
        rcases hs with rfl | rfl | rfl | rfl <;> decide +kernel)
      (by
        simp only [List.mem_cons, List.not_mem_nil, or_false] at hs
        rcases hs with rfl | rfl | rfl | rfl <;> decide +kernel)
      (by
        simp only [List.mem_cons, List.not_mem_nil, or_false] at hs
        rcases hs with rfl | rfl | rfl | rfl <;> decide +kernel)
      (List.isPrefixOf_iff_prefix.1 hpre)
    have h0 := hn s hs
    rw [List.isPrefixOf_iff_prefix.2 this] at h0
    cases h0
  have hno : NoStack o.1 := by
    rcases outputLine_stack h2 with e | ⟨l, e⟩
    · rw [e]; exact hn'
    · rw [e]
      intro s hs
      simp only [List.mem_cons, List.not_mem_nil, or_false] at hs
      rcases hs with rfl | rfl | rfl | rfl <;> rfl
  rw [stackLine_none hno, Outcome.bind_done] at h
  split at h
  · obtain ⟨r, h3, h⟩ := bind_eq_done h
    obtain rfl := Outcome.done.inj h
    have h4 := layerLine_same h3
    refine ⟨Eq.trans ?_ h4.1, Eq.trans ?_ h4.2⟩ <;>
    · unfold addLoss scaleOutput
      split <;> split <;> rfl
  · obtain rfl := Outcome.done.inj h
    exact ⟨rfl, rfl⟩

/-- Stack lines are taken as they are. -/
theorem addLine_stack (conv : Str → D) (zero one : D) (f : Fields) (data : Conn) (classes : Nat)
    (loss : Bool) {line : Str} (st : State D) (hp : ∃ l, line = 'p' :: l) (h1 : '(' ∉ line)
    (h2 : 'f' ∉ line) : addLine conv zero one f data classes loss line st = stackLine line st := by
  obtain ⟨l, rfl⟩ := hp
  unfold addLine
  rw [if_neg (by rw [show startsWithIdentifier ('p' :: l) ['#'] = false from rfl]; exact Bool.false_ne_true),
    preprocess_id h1 h2, Outcome.bind_done]
  have ho : outputLine conv one classes ('p' :: l) = .done ('p' :: l, false, one) := by
    unfold outputLine
    rw [if_neg (by
      rw [show startsWithIdentifier ('p' :: l) "?output".toList = false from rfl]
      exact Bool.false_ne_true)]
  rw [ho, Outcome.bind_done]
  simp only []
  cases stackLine ('p' :: l) st <;> rfl

end Add

/-- The invariant of a stack: its entries are those of the open pushes, most recent first, and the
heights at their lines count down. -/
theorem open_stack {α : Type _} (push pop : Str) (lines : List Str) (last : Nat → α) (stk : Nat → List α)
    (hne : ∀ l : Str, push.isPrefixOf l = true → pop.isPrefixOf l = false)
    (h0 : stk 0 = [])
    (hpush : ∀ (k : Nat) (l : Str), lines[k]? = some l → push.isPrefixOf l = true →
      stk (k + 1) = last k :: stk k)
    (hpop : ∀ (k : Nat) (l : Str), lines[k]? = some l → pop.isPrefixOf l = true →
      ∃ c, stk k = c :: stk (k + 1))
    (hsame : ∀ (k : Nat) (l : Str), lines[k]? = some l → push.isPrefixOf l = false →
      pop.isPrefixOf l = false → stk (k + 1) = stk k) :
    ∀ k, k ≤ lines.length → ∃ L : List Nat, L.Pairwise (· > ·) ∧
      (∀ i, i ∈ L ↔ OpenPush push pop lines k i) ∧ stk k = L.map last ∧
      height push pop lines k = L.length ∧
      ∀ (j i : Nat), L[j]? = some i → height push pop lines i + j + 1 = L.length := by
  intro k
  induction k with
  | zero =>
    intro _
    refine ⟨[], by simp, fun i => ⟨by simp, fun h => absurd h.1 (by omega)⟩, by rw [h0]; rfl, rfl, by simp⟩
  | succ k ih =>
    intro hk
    obtain ⟨L, hL, hO, hS, hH, hD⟩ := ih (by omega)
    obtain ⟨l, hl⟩ : ∃ l, lines[k]? = some l := ⟨lines[k], by simp [List.getElem?_eq_getElem (by omega : k < lines.length)]⟩
    have hstep : height push pop lines (k + 1) = height push pop lines k + change push pop l := by
      unfold height
      rw [List.take_add_one, hl]
      simp
    have hopen : ∀ i, i < k → height push pop lines i < height push pop lines (k + 1) →
        (OpenPush push pop lines (k + 1) i ↔ OpenPush push pop lines k i) := by
      intro i hi hlt
      constructor
      · rintro ⟨_, h2, h3⟩
        exact ⟨hi, h2, fun j hj hj' => h3 j hj (by omega)⟩
      · rintro ⟨_, h2, h3⟩
        refine ⟨by omega, h2, fun j hj hj' => ?_⟩
        rcases Nat.lt_or_ge k j with h | h
        · rw [show j = k + 1 by omega]; exact hlt
        · exact h3 j hj h
    have hlow : ∀ i, i ∈ L → height push pop lines i < height push pop lines k := by
      intro i hi
      obtain ⟨h1, h2, h3⟩ := (hO i).1 hi
      exact h3 k h1 (by omega)
    have hopen_lt : ∀ i, OpenPush push pop lines (k + 1) i →
        height push pop lines i < height push pop lines (k + 1) := fun i h => h.2.2 (k + 1) h.1 (by omega)
    by_cases hp : push.isPrefixOf l = true
    · have hc : change push pop l = 1 := by unfold change; rw [hp]; rfl
      refine ⟨k :: L, ?_, ?_, ?_, ?_, ?_⟩
      · rw [List.pairwise_cons]
        refine ⟨fun i hi => ?_, hL⟩
        exact ((hO i).1 hi).1
      · intro i
        rw [List.mem_cons]
        constructor
        · rintro (rfl | hi)
          · refine ⟨by omega, ⟨l, hl, hp⟩, fun j hj hj' => ?_⟩
            rw [show j = i + 1 by omega, hstep, hc]
            omega
          · have h := hlow i hi
            exact (hopen i ((hO i).1 hi).1 (by rw [hstep, hc]; omega)).2 ((hO i).1 hi)
        · intro h
          rcases Nat.lt_or_ge i k with hi | hi
          · exact Or.inr ((hO i).2 ((hopen i hi (hopen_lt i h)).1 h))
          · left
            have := h.1
            omega
      · rw [hpush k l hl hp, hS]; rfl
      · rw [hstep, hc, hH]; simp
      · intro j i hj
        cases j with
        | zero =>
          rw [List.getElem?_cons_zero] at hj
          obtain rfl := Option.some.inj hj
          rw [hH]; simp
        | succ j =>
          rw [List.getElem?_cons_succ] at hj
          have := hD j i hj
          rw [List.length_cons]
          omega
    · have hp' : push.isPrefixOf l = false := Bool.eq_false_iff.2 hp
      by_cases hq : pop.isPrefixOf l = true
      · have hc : change push pop l = -1 := by unfold change; rw [hp', hq]; rfl
        obtain ⟨c, hcs⟩ := hpop k l hl hq
        rw [hS] at hcs
        cases L with
        | nil => simp at hcs
        | cons i0 L' =>
          rw [List.map_cons, List.cons.injEq] at hcs
          have hi0 : height push pop lines i0 = height push pop lines (k + 1) := by
            have := hD 0 i0 rfl
            rw [hstep, hc, hH]
            omega
          have hlow' : ∀ i ∈ L', height push pop lines i < height push pop lines (k + 1) := by
            intro i hi
            obtain ⟨j, hj⟩ := List.mem_iff_getElem?.1 hi
            have := hD (j + 1) i (by rw [List.getElem?_cons_succ]; exact hj)
            have := hD 0 i0 rfl
            omega
          refine ⟨L', (List.pairwise_cons.1 hL).2, ?_, hcs.2.symm, ?_, ?_⟩
          · intro i
            constructor
            · intro hi
              have hm := (hO i).1 (List.mem_cons_of_mem _ hi)
              exact (hopen i hm.1 (hlow' i hi)).2 hm
            · intro h
              have hlt : i < k := by
                have := h.1
                rcases Nat.lt_or_ge i k with h' | h'
                · exact h'
                · obtain rfl : i = k := by omega
                  obtain ⟨l', e1, e2⟩ := h.2.1
                  rw [hl] at e1
                  obtain rfl := Option.some.inj e1
                  rw [hp'] at e2
                  cases e2
              have hm := (hO i).2 ((hopen i hlt (hopen_lt i h)).1 h)
              rcases List.mem_cons.1 hm with rfl | hm
              · have := hopen_lt i h
                omega
              · exact hm
          · rw [hstep, hc, hH, List.length_cons]; omega
          · intro j i hj
            have := hD (j + 1) i (by rw [List.getElem?_cons_succ]; exact hj)
            rw [List.length_cons] at this
            omega
      · have hq' : pop.isPrefixOf l = false := Bool.eq_false_iff.2 hq
        have hc : change push pop l = 0 := by unfold change; rw [hp', hq']; rfl
        rw [hc, Int.add_zero] at hstep
        refine ⟨L, hL, ?_, ?_, by rw [hstep, hH], hD⟩
        · intro i
          constructor
          · intro hi
            have hm := (hO i).1 hi
            exact (hopen i hm.1 (by rw [hstep]; exact hlow i hi)).2 hm
          · intro h
            have hlt : i < k := by
              have := h.1
              rcases Nat.lt_or_ge i k with h' | h'
              · exact h'
              · obtain rfl : i = k := by omega
                obtain ⟨l', e1, e2⟩ := h.2.1
                rw [hl] at e1
                obtain rfl := Option.some.inj e1
                rw [hp'] at e2
                cases e2
            exact (hO i).2 ((hopen i hlt (hopen_lt i h)).1 h)
        · rw [hsame k l hl hp' hq', hS]


/-! ### Runs over the lines -/

section Runs
variable {D : Type _} {conv : Str → D} {zero one : D} {f : Fields} {data : Conn} {classes : Nat}
  {loss : Bool}

theorem addLines_append (ms : List Str) : ∀ (ls : List Str) (st : State D),
    addLines conv zero one f data classes loss (ls ++ ms) st =
      (addLines conv zero one f data classes loss ls st).bind
        (addLines conv zero one f data classes loss ms)
  | [], st => by rw [List.nil_append, addLines, Outcome.bind_done]
  | l :: ls, st => by
    rw [List.cons_append, addLines, addLines]
    cases addLine conv zero one f data classes loss l st with
    | done st' => rw [Outcome.bind_done, Outcome.bind_done, addLines_append ms ls st']
    | fatal => rfl
    | undefined => rfl

theorem addLines_take_succ {lines : List Str} {k : Nat} {l : Str} (h : lines[k]? = some l) (st : State D) :
    addLines conv zero one f data classes loss (lines.take (k + 1)) st =
      (addLines conv zero one f data classes loss (lines.take k) st).bind
        (addLine conv zero one f data classes loss l) := by
  rw [List.take_add_one, h, addLines_append]
  congr 1
  funext st'
  show (addLine conv zero one f data classes loss l st').bind (fun st => .done st) = _
  cases addLine conv zero one f data classes loss l st' <;> rfl

theorem addLines_take_done {lines : List Str} {st st' : State D}
    (h : addLines conv zero one f data classes loss lines st = .done st') (k : Nat) :
    ∃ s, addLines conv zero one f data classes loss (lines.take k) st = .done s := by
  rw [← List.take_append_drop k lines, addLines_append] at h
  obtain ⟨s, h1, _⟩ := bind_eq_done h
  exact ⟨s, h1⟩

/-- A line with one of the stack words in front. -/
theorem stackLine_push {line : Str} {st : State D} (w : Bool)
    (h : (if w then "pusha".toList else "pushb".toList).isPrefixOf line = true) :
    stackLine line st = (push st.last (if w then st.stackA else st.stackB)).bind fun s =>
      .done (if w then { st with stackA := s } else { st with stackB := s }) := by
  unfold stackLine startsWithIdentifier
  cases w with
  | true => rw [if_pos rfl] at h; rw [if_pos h]; rfl
  | false =>
    have h' : "pushb".toList.isPrefixOf line = true := h
    have hn : "pusha".toList.isPrefixOf line = false := by
      rw [List.isPrefixOf_iff_prefix] at h'
      obtain ⟨t, rfl⟩ := h'
      rfl
    rw [hn, if_neg Bool.false_ne_true, if_pos h']
    rfl

theorem stackLine_pop {line : Str} {st : State D} (w : Bool)
    (h : (if w then "popa".toList else "popb".toList).isPrefixOf line = true) :
    stackLine line st = (pop (if w then st.stackA else st.stackB)).bind fun (r : Conn × List Conn) =>
      .done (if w then { st with last := r.1, stackA := r.2 } else { st with last := r.1, stackB := r.2 }) := by
  unfold stackLine startsWithIdentifier
  cases w with
  | true =>
    have h' : "popa".toList.isPrefixOf line = true := h
    have ht := h'
    rw [List.isPrefixOf_iff_prefix] at ht
    obtain ⟨t, rfl⟩ := ht
    rw [show "pusha".toList.isPrefixOf ("popa".toList ++ t) = false from rfl,
      show "pushb".toList.isPrefixOf ("popa".toList ++ t) = false from rfl, if_neg Bool.false_ne_true,
      if_neg Bool.false_ne_true, if_pos h']
    rfl
  | false =>
    have h' : "popb".toList.isPrefixOf line = true := h
    have ht := h'
    rw [List.isPrefixOf_iff_prefix] at ht
    obtain ⟨t, rfl⟩ := ht
    rw [show "pusha".toList.isPrefixOf ("popb".toList ++ t) = false from rfl,
      show "pushb".toList.isPrefixOf ("popb".toList ++ t) = false from rfl,
      show "popa".toList.isPrefixOf ("popb".toList ++ t) = false from rfl, if_neg Bool.false_ne_true,
      if_neg Bool.false_ne_true, if_neg Bool.false_ne_true, if_pos h']
    rfl

end Runs

/-! ### Windows -/

/-- The number of inputs that take part in one output of a chain of unpadded windows. -/
def reach : List Window → Nat
  | [] => 1
  | l :: ls => l.s * (reach ls - 1) + l.k

def steps : List Window → Nat
  | [] => 1
  | l :: ls => l.s * steps ls

theorem reach_pos {ls : List Window} (h : ∀ l ∈ ls, 0 < l.k) : 0 < reach ls := by
  cases ls with
  | nil => exact Nat.one_pos
  | cons l ls =>
    have := h l (by simp)
    unfold reach
    omega

/-- The windows without gaps cover an interval. -/
theorem feeds_iff {ls : List Window} (h : ∀ l ∈ ls, 0 < l.s ∧ l.s ≤ l.k) (x i : Nat) :
    Feeds ls x i ↔ steps ls * x ≤ i ∧ i < steps ls * x + reach ls := by
  induction ls generalizing i with
  | nil => simp only [Feeds, steps, reach]; omega
  | cons l ls ih =>
    have hl := h l (by simp)
    have hls : ∀ l ∈ ls, 0 < l.s ∧ l.s ≤ l.k := fun m hm => h m (by simp [hm])
    have hr : 0 < reach ls := reach_pos fun m hm => by have := hls m hm; omega
    simp only [Feeds, steps, reach]
    constructor
    · rintro ⟨j, hj, h1, h2⟩
      rw [ih hls] at hj
      rw [Nat.mul_assoc]
      have e1 := Nat.mul_le_mul_left l.s hj.1
      have e2 : l.s * j ≤ l.s * (steps ls * x + (reach ls - 1)) := Nat.mul_le_mul_left l.s (by omega)
      rw [Nat.mul_add] at e2
      omega
    · rintro ⟨h1, h2⟩
      rw [Nat.mul_assoc] at h1 h2
      rcases Nat.lt_or_ge i (l.s * (steps ls * x + (reach ls - 1))) with hi | hi
      · refine ⟨i / l.s, (ih hls _).2 ⟨?_, ?_⟩, Nat.mul_div_le _ _, ?_⟩
        · rw [Nat.le_div_iff_mul_le hl.1, Nat.mul_comm]; exact h1
        · have : i / l.s < steps ls * x + (reach ls - 1) := by
            rw [Nat.div_lt_iff_lt_mul hl.1, Nat.mul_comm]; exact hi
          omega
        · have := Nat.div_add_mod i l.s
          have := Nat.mod_lt i hl.1
          omega
      · refine ⟨steps ls * x + (reach ls - 1), (ih hls _).2 ⟨by omega, by omega⟩, hi, ?_⟩
        rw [Nat.mul_add]
        omega

/-- Gaps or not, the inputs lie in the interval. -/
theorem feeds_bound {ls : List Window} (h : ∀ l ∈ ls, 0 < l.s ∧ 0 < l.k) {x i : Nat} (hf : Feeds ls x i) :
    steps ls * x ≤ i ∧ i < steps ls * x + reach ls := by
  induction ls generalizing i with
  | nil => simp only [Feeds, steps, reach] at hf ⊢; omega
  | cons l ls ih =>
    have hl := h l (by simp)
    have hls : ∀ l ∈ ls, 0 < l.s ∧ 0 < l.k := fun m hm => h m (by simp [hm])
    have hr : 0 < reach ls := reach_pos fun m hm => (hls m hm).2
    simp only [Feeds, steps, reach] at hf ⊢
    obtain ⟨j, hj, h1, h2⟩ := hf
    have hj := ih hls hj
    rw [Nat.mul_assoc]
    have e1 := Nat.mul_le_mul_left l.s hj.1
    have e2 : l.s * j ≤ l.s * (steps ls * x + (reach ls - 1)) := Nat.mul_le_mul_left l.s (by omega)
    rw [Nat.mul_add] at e2
    omega

/-- Layers without padding. -/
def Geo.Plain : Geo → Prop
  | .window _ _ p => p = 0
  | .tile _ => True

/-- Layers whose windows move by one, or that cut tiles. -/
def Geo.Dense : Geo → Prop
  | .window _ s p => s = 1 ∧ p = 0
  | .tile _ => True

theorem steps_total (gs : List Geo) : steps (gs.map Geo.toWindow) = total gs := by
  induction gs with
  | nil => rfl
  | cons g gs ih =>
    rw [List.map_cons, steps, total, ih]
    cases g <;> rfl

theorem reach_dense {gs : List Geo} (hok : ∀ g ∈ gs, g.Ok) (hd : ∀ g ∈ gs, g.Dense) :
    reach (gs.map Geo.toWindow) = field gs + total gs := by
  induction gs with
  | nil => rfl
  | cons g gs ih =>
    have hg := hok g (by simp)
    have hdg := hd g (by simp)
    have ih := ih (fun m hm => hok m (by simp [hm])) (fun m hm => hd m (by simp [hm]))
    have hT := total_pos (gs := gs) (fun m hm => hok m (by simp [hm]))
    rw [List.map_cons, reach, field, total, ih]
    cases g with
    | window k s p =>
      obtain ⟨rfl, rfl⟩ := hdg
      obtain ⟨hk, -⟩ := hg
      simp only [Geo.toWindow, Geo.extra, Geo.factor]
      omega
    | tile k =>
      simp only [Geo.toWindow, Geo.extra, Geo.factor]
      rw [Nat.mul_sub, Nat.mul_add, Nat.mul_one, Nat.zero_add]
      have : k ≤ k * total gs := Nat.le_mul_of_pos_right k hT
      omega

theorem reach_plain {gs : List Geo} (hok : ∀ g ∈ gs, g.Ok) (hd : ∀ g ∈ gs, g.Plain) :
    reach (gs.map Geo.toWindow) ≤ field gs + total gs := by
  induction gs with
  | nil => exact Nat.le_refl _
  | cons g gs ih =>
    have hg := hok g (by simp)
    have hdg := hd g (by simp)
    have ih := ih (fun m hm => hok m (by simp [hm])) (fun m hm => hd m (by simp [hm]))
    rw [List.map_cons, reach, field, total]
    cases g with
    | window k s p =>
      obtain rfl : p = 0 := hdg
      obtain ⟨hk, hs, -⟩ := hg
      simp only [Geo.toWindow, Geo.extra, Geo.factor]
      have h1 := Nat.mul_le_mul_left s (show reach (gs.map Geo.toWindow) - 1 ≤ field gs + total gs - 1 by omega)
      have hT := total_pos (gs := gs) (fun m hm => hok m (by simp [hm]))
      rw [Nat.mul_sub s (field gs + total gs), Nat.mul_add] at h1
      have h2 : s * 1 ≤ s * total gs := Nat.mul_le_mul_left s hT
      omega
    | tile k =>
      simp only [Geo.toWindow, Geo.extra, Geo.factor]
      have h1 := Nat.mul_le_mul_left k (show reach (gs.map Geo.toWindow) - 1 ≤ field gs + total gs - 1 by omega)
      have hT := total_pos (gs := gs) (fun m hm => hok m (by simp [hm]))
      rw [Nat.mul_sub k (field gs + total gs), Nat.mul_add] at h1
      have h2 : k * 1 ≤ k * total gs := Nat.mul_le_mul_left k hT
      omega

namespace Op
variable {V : Type _}

/-- Moving the input by the steps moves the output by one. -/
theorem runAll_shift (os : List (Op V)) (u : Nat → Nat → V) (x y x' y' : Nat) :
    runAll os u (x + x') (y + y') =
      runAll os (fun i j => u (steps (os.map (·.x)) * x + i) (steps (os.map (·.y)) * y + j)) x' y' := by
  induction os generalizing u with
  | nil => simp [runAll, steps]
  | cons o os ih =>
    rw [runAll, runAll, ih]
    congr 1
    funext i j
    simp only [run, List.map_cons, steps]
    congr 1
    funext a b
    rw [Nat.mul_add, Nat.mul_add, Nat.mul_assoc, Nat.mul_assoc, Nat.add_assoc, Nat.add_assoc]

/-- Only the reach matters. -/
theorem runAll_local {os : List (Op V)} (h : ∀ o ∈ os, o.Local ∧ 0 < o.x.k ∧ 0 < o.y.k)
    {u v : Nat → Nat → V}
    (huv : ∀ i j, i < reach (os.map (·.x)) → j < reach (os.map (·.y)) → u i j = v i j) :
    runAll os u 0 0 = runAll os v 0 0 := by
  induction os generalizing u v with
  | nil => exact huv 0 0 (by simp [reach]) (by simp [reach])
  | cons o os ih =>
    rw [runAll, runAll]
    refine ih (fun p hp => h p (by simp [hp])) (fun i j hi hj => ?_)
    refine (h o (by simp)).1 _ _ (fun a b ha hb => huv _ _ ?_ ?_)
    · rw [List.map_cons, reach]
      have := Nat.mul_le_mul_left o.x.s (show i ≤ reach (os.map (·.x)) - 1 by omega)
      omega
    · rw [List.map_cons, reach]
      have := Nat.mul_le_mul_left o.y.s (show j ≤ reach (os.map (·.y)) - 1 by omega)
      omega

end Op

end CN24.NetConfig
