import Verif.Proof.NetConfig
import Verif.Proof.LayerParams

/-
C83: a line of a network description adds the layer it names, with the parameters written in it.
-/

namespace CN24.Props
open CN24 CN24.Config CN24.Net CN24.NetConfig CN24.LayerParams

section
variable {D : Type _}

/-! ## Lines -/

/-- The text of a line: a question mark, the type and the parameters. -/
def lineText (type : String) (ps : Params) : Str :=
  '?' :: joinSp (type.toList :: ps.map fun p => pairText (p.1, p.2.text))

/-- A line without the words that are replaced before it is read. -/
structure Plain (t : Str) : Prop where
  classes : ¬ "(o)".toList <:+: t
  full : ¬ "fullyconnected".toList <:+: t
  flatten : ¬ "flatten".toList <:+: t

theorem lineText_eq (type : String) (ps : Params) : lineText type ps = '?' :: paramLine [type.toList] ps := by
  unfold lineText paramLine
  rw [List.map_map]
  rfl

theorem preprocess_plain {t : Str} (h : Plain t) (m : Method) (classes : Nat) :
    preprocess m classes t = .done t := by
  unfold preprocess
  rw [replaceFirst_none (by simp) h.classes, Option.getD_none]
  simp only []
  rw [replaceFirst_none (by simp) h.full]
  simp only [Outcome.bind_done]
  rw [if_neg]
  rw [find_none_of_not_infix (by simp) h.flatten]
  simp

/-- A layer line that is not the output. -/
theorem addLine_line (conv : Str → D) (zero one : D) (f : Fields) (data : Conn) (classes : Nat)
    (loss : Bool) {type : String} {ps : Params} (st : State D) (hp : Plain (lineText type ps))
    (ho : startsWithIdentifier (paramLine [type.toList] ps) "output".toList = false) :
    addLine conv zero one f data classes loss (lineText type ps) st =
      (layerLine conv zero one f data false (paramLine [type.toList] ps) st).bind fun r =>
        .done (addLoss loss data r.2 one (scaleOutput f r.2 r.1)) := by
  have hpre := preprocess_plain hp f.method classes
  rw [lineText_eq] at hpre ⊢
  generalize paramLine [type.toList] ps = line at hpre ho
  unfold addLine
  rw [if_neg (by simp [startsWithIdentifier]), hpre, Outcome.bind_done]
  have ho' : outputLine conv one classes ('?' :: line) = .done ('?' :: line, false, one) := by
    unfold outputLine
    rw [if_neg]
    change ¬ startsWithIdentifier line "output".toList = true
    rw [ho]; exact Bool.false_ne_true
  have hs : stackLine ('?' :: line) st = .done st := by
    unfold stackLine startsWithIdentifier
    rw [if_neg (by simp), if_neg (by simp), if_neg (by simp), if_neg (by simp)]
  rw [ho', Outcome.bind_done]
  simp only []
  rw [hs, Outcome.bind_done]

theorem starts_line (type : String) (ps : Params) (id : Str) :
    startsWithIdentifier (paramLine [type.toList] ps) id =
      startsWithIdentifier (type.toList ++ ((ps.map pairOf).map pairText).flatMap (fun v => ' ' :: v)) id :=
  starts_joinSp _ _ _

/-! ## The lines of a description -/

def convolutionNames : Vocabulary :=
  [("size", [.size]), ("stride", [.size]), ("pad", [.size]), ("kernels", [.count]),
   ("group", [.count]), ("dropout", [.count, .word]), ("llr", [.count, .word])]
def normalisationNames : Vocabulary :=
  [("method", [.word]), ("size", [.count]), ("alpha", [.count, .word]), ("beta", [.count, .word])]
def poolingNames : Vocabulary := [("size", [.size]), ("stride", [.size])]
def hmaxNames : Vocabulary := [("mu", [.count, .word]), ("weight", [.count, .word])]
def upscaleNames : Vocabulary := [("factor", [.size]), ("is_output", [.count])]
def outputNames : Vocabulary := [("weight", [.count, .word])]

/-- A number given under a name, or its default. -/
def numberGiven (conv : Str → D) (ps : Params) (name : String) (default : D) : D :=
  ((wordGiven ps name).map conv).getD default

/-- C83, convolutions: for all parameters in any order, the line adds one convolution connected to the
previous layer with exactly the parameters given, or their defaults, and with its own seed; it is
refused with an error if a kernel or step is 0 or the groups do not divide the kernels. -/
theorem C83_convolution_partial (conv : Str → D) (zero one : D) (f : Fields) (data : Conn) (classes : Nat)
    (loss : Bool) (ps : Params) (st : State D) (h : Typed convolutionNames ps)
    (hp : Plain (lineText "convolutional" ps))
    (hl : (lineText "convolutional" ps).length < 18446744073709551616) :
    let k := sizeGiven ps "size" (1, 1)
    let s := sizeGiven ps "stride" (1, 1)
    let p := sizeGiven ps "pad" (0, 0)
    let maps := countGiven ps "kernels" 1
    let group := countGiven ps "group" 1
    addLine conv zero one f data classes loss (lineText "convolutional" ps) st =
      if k.1 = 0 ∨ k.2 = 0 ∨ s.1 = 0 ∨ s.2 = 0 then .fatal
      else if group = 0 then .undefined
      else if maps % group ≠ 0 then .fatal
      else .done { st with
        nodes := st.nodes ++ [⟨.conv ⟨maps, k.1, k.2, s.1, s.2, p.1, p.2, group⟩ st.draws
          (numberGiven conv ps "dropout" zero) (numberGiven conv ps "llr" one), [st.last], false⟩],
        last := ⟨st.base + st.nodes.length, 0, true⟩,
        draws := st.draws + 1 } := by
  intro k s p maps group
  rw [addLine_line conv zero one f data classes loss st hp (by rw [starts_line]; rfl)]
  have hlen : (paramLine ["convolutional".toList] ps).length < 18446744073709551616 := by
    rw [lineText_eq, List.length_cons] at hl
    omega
  have hw : ∀ w ∈ ["convolutional".toList], '=' ∉ w := by decide
  have hd : ∀ (m : Outcome Convolution.Params), layerLine conv zero one f data false
      (paramLine ["convolutional".toList] ps) st =
      (Convolution.construct ⟨maps, k.1, k.2, s.1, s.2, p.1, p.2, group⟩).bind fun q =>
        .done ({ st with draws := st.draws + 1 }.add ⟨.conv q st.draws
          (numberGiven conv ps "dropout" zero) (numberGiven conv ps "llr" one), [st.last], false⟩, false) := by
    intro _
    unfold layerLine
    rw [if_pos (by rw [starts_line]; rfl)]
    unfold convolutionLine
    rw [read_size h hw (by decide) (by decide) _ hlen, Outcome.ofOption_some, Outcome.bind_done,
      read_size h hw (by decide) (by decide) _ hlen, Outcome.ofOption_some, Outcome.bind_done,
      read_size h hw (by decide) (by decide) _ hlen, Outcome.ofOption_some, Outcome.bind_done,
      read_count h hw (by decide) (by decide), Outcome.ofOption_some, Outcome.bind_done,
      read_count h hw (by decide) (by decide), Outcome.ofOption_some, Outcome.bind_done,
      read_word conv h hw (by decide) (by decide), Outcome.ofOption_some, Outcome.bind_done,
      read_word conv h hw (by decide) (by decide), Outcome.ofOption_some, Outcome.bind_done]
    show (Outcome.bind (Outcome.bind (Convolution.construct ⟨maps, k.1, k.2, s.1, s.2, p.1, p.2, group⟩) _) _) = _
    cases Convolution.construct ⟨maps, k.1, k.2, s.1, s.2, p.1, p.2, group⟩ <;> rfl
  rw [hd .fatal]
  unfold Convolution.construct
  simp only
  by_cases h1 : k.1 = 0 ∨ k.2 = 0
  · rw [if_pos h1, if_pos (by tauto)]; rfl
  rw [if_neg h1]
  by_cases h2 : s.1 = 0 ∨ s.2 = 0
  · rw [if_pos h2, if_pos (by tauto)]; rfl
  rw [if_neg h2, if_neg (show ¬ (k.1 = 0 ∨ k.2 = 0 ∨ s.1 = 0 ∨ s.2 = 0) from by tauto)]
  by_cases h3 : group = 0
  · rw [if_pos h3, if_pos h3]; rfl
  rw [if_neg h3, if_neg h3]
  by_cases h4 : maps % group ≠ 0
  · rw [if_pos h4, if_pos h4]; rfl
  rw [if_neg h4, if_neg h4]
  simp only [Outcome.bind_done, scaleOutput, addLoss, State.add, Bool.false_eq_true, false_and, if_false]

/-- C83, normalisations: the line must name a method, `across` or `within`; the layer has the size and
the numbers given. -/
theorem C83_normalisation_partial (conv : Str → D) (zero one : D) (f : Fields) (data : Conn)
    (classes : Nat) (loss : Bool) (ps : Params) (st : State D) (h : Typed normalisationNames ps)
    (hp : Plain (lineText "lrn" ps)) :
    let m := (wordGiven ps "method").getD []
    addLine conv zero one f data classes loss (lineText "lrn" ps) st =
      if "across".toList <+: m ∨ "within".toList <+: m then
        .done { st with
          nodes := st.nodes ++ [⟨.lrn (countGiven ps "size" 1) (numberGiven conv ps "alpha" one)
            (numberGiven conv ps "beta" one) (decide ("across".toList <+: m)), [st.last], false⟩],
          last := ⟨st.base + st.nodes.length, 0, true⟩ }
      else .fatal := by
  intro m
  rw [addLine_line conv zero one f data classes loss st hp (by rw [starts_line]; rfl)]
  have hw : ∀ w ∈ ["lrn".toList], '=' ∉ w := by decide
  unfold layerLine
  rw [if_neg (by rw [starts_line]; exact Bool.false_ne_true), if_pos (by rw [starts_line]; rfl)]
  unfold lrnLine
  rw [read_param (k := [.word]) h hw (by decide) (by decide) (by decide), Outcome.ofOption_some,
    Outcome.bind_done, read_count h hw (by decide) (by decide), Outcome.ofOption_some,
    read_word conv h hw (by decide) (by decide), Outcome.ofOption_some,
    read_word conv h hw (by decide) (by decide), Outcome.ofOption_some]
  simp only [Outcome.bind_done]
  have hs : ∀ id : Str, (startsWithIdentifier m id = true) = (id <+: m) := fun id => by
    unfold startsWithIdentifier
    rw [List.isPrefixOf_iff_prefix]
  change Outcome.bind (Outcome.bind (Outcome.bind (if startsWithIdentifier m "across".toList = true then _ else
    if startsWithIdentifier m "within".toList = true then _ else _) _) _) _ = _
  simp only [hs]
  by_cases h1 : "across".toList <+: m
  · rw [if_pos h1, if_pos (Or.inl h1)]
    simp only [Outcome.bind_done, scaleOutput, addLoss, State.add, Bool.false_eq_true, false_and,
      if_false, decide_eq_true h1]
    rfl
  rw [if_neg h1]
  by_cases h2 : "within".toList <+: m
  · rw [if_pos h2, if_pos (Or.inr h2)]
    simp only [Outcome.bind_done, scaleOutput, addLoss, State.add, Bool.false_eq_true, false_and,
      if_false, decide_eq_false h1]
    rfl
  · rw [if_neg h2, if_neg (by tauto)]; rfl

/-- C83, poolings: the three kinds, with the regions and steps given; the step of the third kind is its
region unless given. -/
theorem C83_pooling_partial (conv : Str → D) (zero one : D) (f : Fields) (data : Conn) (classes : Nat)
    (loss : Bool) (ps : Params) (st : State D) (h : Typed poolingNames ps) :
    let k := sizeGiven ps "size" (1, 1)
    let s := sizeGiven ps "stride" k
    let add (l : NetConfig.Layer D) (backprop : Bool) : State D := { st with
      nodes := st.nodes ++ [⟨l, [st.last], false⟩], last := ⟨st.base + st.nodes.length, 0, backprop⟩ }
    ∀ type l backprop, (type, l, backprop) ∈ [("maxpooling", NetConfig.Layer.maxPool k.1 k.2, true),
        ("downsampling", .downSample k.1 k.2, false), ("amaxpooling", .advMaxPool k.1 k.2 s.1 s.2, true)] →
      Plain (lineText type ps) → (lineText type ps).length < 18446744073709551616 →
      addLine conv zero one f data classes loss (lineText type ps) st = .done (add l backprop) := by
  intro k s add type l backprop hmem hp hl
  have hlen : (paramLine [type.toList] ps).length < 18446744073709551616 := by
    rw [lineText_eq, List.length_cons] at hl
    omega
  simp only [List.mem_cons, Prod.mk.injEq, List.not_mem_nil, or_false] at hmem
  rcases hmem with ⟨rfl, rfl, rfl⟩ | ⟨rfl, rfl, rfl⟩ | ⟨rfl, rfl, rfl⟩
  · rw [addLine_line conv zero one f data classes loss st hp (by rw [starts_line]; rfl)]
    unfold layerLine poolingLine
    rw [if_neg (by rw [starts_line]; exact Bool.false_ne_true),
      if_neg (by rw [starts_line]; exact Bool.false_ne_true), if_pos (by rw [starts_line]; rfl),
      read_size h (by decide) (by decide) (by decide) _ hlen, Outcome.ofOption_some]
    simp only [Outcome.bind_done, scaleOutput, addLoss, State.add, Bool.false_eq_true, false_and, if_false]
    rfl
  · rw [addLine_line conv zero one f data classes loss st hp (by rw [starts_line]; rfl)]
    unfold layerLine poolingLine
    rw [if_neg (by rw [starts_line]; exact Bool.false_ne_true),
      if_neg (by rw [starts_line]; exact Bool.false_ne_true),
      if_neg (by rw [starts_line]; exact Bool.false_ne_true), if_pos (by rw [starts_line]; rfl),
      read_size h (by decide) (by decide) (by decide) _ hlen, Outcome.ofOption_some]
    simp only [Outcome.bind_done, scaleOutput, addLoss, State.add, Bool.false_eq_true, false_and, if_false]
    rfl
  · rw [addLine_line conv zero one f data classes loss st hp (by rw [starts_line]; rfl)]
    unfold layerLine poolingLine
    rw [if_neg (by rw [starts_line]; exact Bool.false_ne_true),
      if_neg (by rw [starts_line]; exact Bool.false_ne_true),
      if_neg (by rw [starts_line]; exact Bool.false_ne_true),
      if_neg (by rw [starts_line]; exact Bool.false_ne_true), if_pos (by rw [starts_line]; rfl),
      read_size h (by decide) (by decide) (by decide) _ hlen, Outcome.ofOption_some, Outcome.bind_done,
      read_size h (by decide) (by decide) (by decide) _ hlen, Outcome.ofOption_some]
    simp only [Outcome.bind_done, scaleOutput, addLoss, State.add, Bool.false_eq_true, false_and, if_false]
    rfl

/-- C83, activations, with the parameters of the one that has any. -/
theorem C83_activation_partial (conv : Str → D) (zero one : D) (f : Fields) (data : Conn) (classes : Nat)
    (loss : Bool) (ps : Params) (st : State D) (h : Typed hmaxNames ps) :
    ∀ type l, (type, l) ∈ [("sigm", NetConfig.Layer.sigmoid), ("relu", .relu), ("tanh", .tanh),
        ("hmax", .hmax (numberGiven conv ps "mu" one) (numberGiven conv ps "weight" zero))] →
      Plain (lineText type ps) →
      addLine conv zero one f data classes loss (lineText type ps) st = .done { st with
        nodes := st.nodes ++ [⟨l, [st.last], false⟩], last := ⟨st.base + st.nodes.length, 0, true⟩ } := by
  intro type l hmem hp
  simp only [List.mem_cons, Prod.mk.injEq, List.not_mem_nil, or_false] at hmem
  have key : ∀ r : State D, activationLine conv zero one f.method false (paramLine [type.toList] ps) st =
      .done (some r) →
      (∀ id ∈ ["output".toList, "convolutional".toList, "lrn".toList, "maxpooling".toList,
        "downsampling".toList, "amaxpooling".toList],
        startsWithIdentifier (paramLine [type.toList] ps) id = false) →
      addLine conv zero one f data classes loss (lineText type ps) st = .done r := by
    intro r hr hid
    rw [addLine_line conv zero one f data classes loss st hp (hid _ (by simp))]
    unfold layerLine poolingLine
    rw [hid "convolutional".toList (by simp), hid "lrn".toList (by simp), hid "maxpooling".toList (by simp),
      hid "downsampling".toList (by simp), hid "amaxpooling".toList (by simp)]
    simp only [Bool.false_eq_true, if_false, Outcome.bind_done, hr, scaleOutput, addLoss, false_and]
  rcases hmem with ⟨rfl, rfl⟩ | ⟨rfl, rfl⟩ | ⟨rfl, rfl⟩ | ⟨rfl, rfl⟩
  · refine key _ ?_ ?_
    · unfold activationLine
      rw [if_pos (by rw [starts_line]; rfl)]
      rfl
    · intro id hid
      rw [starts_line]
      simp only [List.mem_cons, List.not_mem_nil, or_false] at hid
      rcases hid with rfl | rfl | rfl | rfl | rfl | rfl <;> rfl
  · refine key _ ?_ ?_
    · unfold activationLine
      simp only []
      rw [if_neg (by rw [starts_line]; exact Bool.false_ne_true),
        if_neg (by rw [starts_line]; exact Bool.false_ne_true), if_pos (by rw [starts_line]; rfl)]
      rfl
    · intro id hid
      rw [starts_line]
      simp only [List.mem_cons, List.not_mem_nil, or_false] at hid
      rcases hid with rfl | rfl | rfl | rfl | rfl | rfl <;> rfl
  · refine key _ ?_ ?_
    · unfold activationLine
      simp only []
      rw [if_neg (by rw [starts_line]; exact Bool.false_ne_true),
        if_neg (by rw [starts_line]; exact Bool.false_ne_true),
        if_neg (by rw [starts_line]; exact Bool.false_ne_true), if_pos (by rw [starts_line]; rfl)]
      rfl
    · intro id hid
      rw [starts_line]
      simp only [List.mem_cons, List.not_mem_nil, or_false] at hid
      rcases hid with rfl | rfl | rfl | rfl | rfl | rfl <;> rfl
  · refine key _ ?_ ?_
    · unfold activationLine
      simp only []
      rw [if_neg (by rw [starts_line]; exact Bool.false_ne_true), if_pos (by rw [starts_line]; rfl),
        read_word conv h (by decide) (by decide) (by decide), Outcome.ofOption_some, Outcome.bind_done,
        read_word conv h (by decide) (by decide) (by decide), Outcome.ofOption_some, Outcome.bind_done]
      rfl
    · intro id hid
      rw [starts_line]
      simp only [List.mem_cons, List.not_mem_nil, or_false] at hid
      rcases hid with rfl | rfl | rfl | rfl | rfl | rfl <;> rfl

/-- C83, scaling by hand: one node with the factors given; if it is declared the output, it is the output
of the net and gets the loss. -/
theorem C83_upscale_partial (conv : Str → D) (zero one : D) (f : Fields) (data : Conn) (classes : Nat)
    (loss : Bool) (ps : Params) (st : State D) (h : Typed upscaleNames ps)
    (hp : Plain (lineText "upscale" ps)) (hl : (lineText "upscale" ps).length < 18446744073709551616) :
    let u := sizeGiven ps "factor" (1, 1)
    let o := decide (countGiven ps "is_output" 0 = 1)
    addLine conv zero one f data classes loss (lineText "upscale" ps) st = .done { st with
      nodes := st.nodes ++ ⟨.upscale u.1 u.2, [st.last], o⟩ ::
        (if o = true ∧ loss = true then [⟨.error one, [⟨st.base + st.nodes.length, 0, true⟩,
          ⟨data.node, 1, data.backprop⟩, ⟨data.node, 3, data.backprop⟩], false⟩] else []),
      last := ⟨st.base + st.nodes.length, 0, true⟩,
      upscaled := true } := by
  intro u o
  have hlen : (paramLine ["upscale".toList] ps).length < 18446744073709551616 := by
    rw [lineText_eq, List.length_cons] at hl
    omega
  have hid : ∀ id ∈ ["output".toList, "convolutional".toList, "lrn".toList, "maxpooling".toList,
      "downsampling".toList, "amaxpooling".toList, "sigm".toList, "hmax".toList, "relu".toList,
      "tanh".toList, "spatialprior".toList, "concat".toList, "sum".toList],
      startsWithIdentifier (paramLine ["upscale".toList] ps) id = false := by
    intro id hid
    rw [starts_line]
    simp only [List.mem_cons, List.not_mem_nil, or_false] at hid
    rcases hid with rfl | rfl | rfl | rfl | rfl | rfl | rfl | rfl | rfl | rfl | rfl | rfl | rfl <;> rfl
  rw [addLine_line conv zero one f data classes loss st hp (hid _ (by simp))]
  have hj : joinLine f data false (paramLine ["upscale".toList] ps) st =
      .done ({ st.add ⟨.upscale u.1 u.2, [st.last], o⟩ with upscaled := true }, o) := by
    unfold joinLine
    rw [hid "spatialprior".toList (by simp), hid "concat".toList (by simp), hid "sum".toList (by simp),
      if_neg Bool.false_ne_true, if_neg Bool.false_ne_true, if_neg Bool.false_ne_true,
      if_pos (by rw [starts_line]; rfl), read_size h (by decide) (by decide) (by decide) _ hlen,
      Outcome.ofOption_some, Outcome.bind_done, read_count h (by decide) (by decide) (by decide),
      Outcome.ofOption_some, Outcome.bind_done]
  unfold layerLine poolingLine activationLine
  rw [hid "convolutional".toList (by simp), hid "lrn".toList (by simp), hid "maxpooling".toList (by simp),
    hid "downsampling".toList (by simp), hid "amaxpooling".toList (by simp)]
  simp only [hid "sigm".toList (by simp), hid "hmax".toList (by simp), hid "relu".toList (by simp),
    hid "tanh".toList (by simp), Bool.false_eq_true, if_false, Outcome.bind_done, hj]
  unfold scaleOutput addLoss
  simp only [Bool.not_true, Bool.false_eq_true, false_and, and_false, if_false, State.add]
  by_cases h1 : o = true ∧ loss = true
  · rw [if_pos h1, if_pos h1]
    simp
  · rw [if_neg h1, if_neg h1]

/-- C83, the output: an activation that depends on the number of classes, scaled to the size of the image
unless that was done already or patches are used, marked as the output of the net, and, if wanted, a loss
with the weight given. -/
theorem C83_output_partial (conv : Str → D) (zero one : D) (f : Fields) (data : Conn) (classes : Nat)
    (loss : Bool) (ps : Params) (st : State D) (h : Typed outputNames ps)
    (hp : Plain (lineText "output" ps)) :
    let a : NetConfig.Layer D := if classes = 1 then .tanh else .sigmoid
    let scaled := f.method = .patch ∨ st.upscaled = true
    let last := st.base + st.nodes.length
    let scale := ¬ scaled ∧ (f.factorx ≠ 1 ∨ f.factory ≠ 1)
    addLine conv zero one f data classes loss (lineText "output" ps) st = .done { st with
      nodes := st.nodes ++ [⟨a, [st.last], decide scaled⟩] ++
        (if scale then [⟨.upscale (toUInt f.factorx) (toUInt f.factory), [⟨last, 0, true⟩], true⟩] else []) ++
        (if loss = true then [⟨.error (numberGiven conv ps "weight" one),
          [⟨if scale then last + 1 else last, 0, true⟩, ⟨data.node, 1, data.backprop⟩,
           ⟨data.node, 3, data.backprop⟩], false⟩] else []),
      last := ⟨if scale then last + 1 else last, 0, true⟩ } := by
  intro a scaled last scale
  have hpre := preprocess_plain hp f.method classes
  rw [lineText_eq] at hpre ⊢
  unfold addLine
  rw [if_neg (by simp [startsWithIdentifier]), hpre, Outcome.bind_done]
  have ho : outputLine conv one classes ('?' :: paramLine ["output".toList] ps) =
      .done (if classes = 1 then "?tanh".toList else "?sigm".toList, true, numberGiven conv ps "weight" one) := by
    unfold outputLine
    rw [if_pos (by
      show startsWithIdentifier (paramLine ["output".toList] ps) "output".toList = true
      rw [starts_line]; rfl)]
    have e : ('?' :: paramLine ["output".toList] ps) = paramLine ["?output".toList] ps := by
      unfold paramLine
      rw [List.singleton_append, List.singleton_append, joinSp_cons, joinSp_cons]
      rfl
    rw [e, read_word conv h (by decide) (by decide) (by decide), Outcome.ofOption_some, Outcome.bind_done]
    rfl
  rw [ho, Outcome.bind_done]
  have hs : stackLine (if classes = 1 then "?tanh".toList else "?sigm".toList) st = .done st := by
    split <;> rfl
  simp only []
  rw [hs, Outcome.bind_done]
  have hact : ∀ b : Act, layerLine conv zero one f data true b.name st =
      .done (st.add ⟨b.layer, [st.last], true && (decide (f.method = .patch) || st.upscaled)⟩, true) :=
    fun b => layerLine_act conv zero one f data true b st
  have hfin : ∀ b : Act, (layerLine conv zero one f data true b.name st).bind (fun r =>
      .done (addLoss loss data r.2 (numberGiven conv ps "weight" one) (scaleOutput f r.2 r.1))) =
      .done { st with
        nodes := st.nodes ++ [⟨b.layer, [st.last], decide scaled⟩] ++
          (if scale then [⟨.upscale (toUInt f.factorx) (toUInt f.factory), [⟨last, 0, true⟩], true⟩] else []) ++
          (if loss = true then [⟨.error (numberGiven conv ps "weight" one),
            [⟨if scale then last + 1 else last, 0, true⟩, ⟨data.node, 1, data.backprop⟩,
             ⟨data.node, 3, data.backprop⟩], false⟩] else []),
        last := ⟨if scale then last + 1 else last, 0, true⟩ } := by
    intro b
    rw [hact b, Outcome.bind_done]
    have hdec : (true && (decide (f.method = .patch) || st.upscaled)) = decide scaled := by
      show _ = decide (f.method = .patch ∨ st.upscaled = true)
      cases st.upscaled <;> simp
    rw [hdec]
    unfold scaleOutput addLoss upscaleBy State.add
    simp only [true_and]
    have hsc : (((!st.upscaled) = true ∧ f.method = .fcn ∧ (f.factorx ≠ 1 ∨ f.factory ≠ 1)) ↔ scale) := by
      show _ ↔ ¬ (f.method = .patch ∨ st.upscaled = true) ∧ _
      cases st.upscaled <;> cases f.method <;> simp
    by_cases h2 : scale
    · rw [if_pos (hsc.2 h2), if_pos h2, if_pos h2]
      cases loss <;> simp [last, Nat.add_assoc]
    · rw [if_neg (fun h => h2 (hsc.1 h)), if_neg h2, if_neg h2]
      cases loss <;> simp [last]
  by_cases hc : classes = 1
  · have := hfin .tanh
    simp only [a, if_pos hc]
    exact this
  · have := hfin .sigm
    simp only [a, if_neg hc]
    exact this

/-- C83, `(o)`: it stands for the number of classes, wherever it is in the line. -/
theorem C83_classes (conv : Str → D) (zero one : D) (f : Fields) (data : Conn) (classes : Nat)
    (loss : Bool) (before after : Str) (st : State D) (hb : '(' ∉ before) (ha : '(' ∉ after) :
    addLine conv zero one f data classes loss (before ++ "(o)".toList ++ after) st =
      addLine conv zero one f data classes loss (before ++ digitsOf classes ++ after) st := by
  have hd : '(' ∉ digitsOf classes := fun h => by
    have := digitsOf_isDigit h
    revert this; decide
  have hnone : ¬ "(o)".toList <:+: before ++ digitsOf classes ++ after := by
    intro h
    have := h.subset (show '(' ∈ "(o)".toList by decide)
    simp [hb, ha, hd] at this
  have hfind : find "(o)".toList (before ++ ("(o)".toList ++ after)) = some before.length := by
    clear hnone
    induction before with
    | nil =>
      rw [List.nil_append, find_prefix (List.prefix_append _ _)]
      rfl
    | cons c cs ih =>
      have hc : c ≠ '(' := fun e => hb (by simp [e])
      have h1 : ¬ "(o)".toList <+: (c :: cs ++ ("(o)".toList ++ after)) := by
        rw [List.cons_append]
        intro h
        have := List.cons_prefix_cons.1 (show ('(' :: ['o', ')']) <+: _ from h)
        exact hc this.1.symm
      rw [List.cons_append] at h1 ⊢
      rw [find_not_prefix h1, ih (fun h => hb (List.mem_cons_of_mem _ h))]
      rfl
  have hpre : preprocess f.method classes (before ++ "(o)".toList ++ after) =
      preprocess f.method classes (before ++ digitsOf classes ++ after) := by
    unfold preprocess
    rw [replaceFirst_none (by simp) hnone, Option.getD_none]
    have : replaceFirst "(o)".toList (digitsOf classes) (before ++ "(o)".toList ++ after) =
        some (before ++ digitsOf classes ++ after) := by
      unfold replaceFirst
      rw [List.append_assoc, hfind, Option.map_some, List.take_left, List.drop_length_add_append]
      rfl
    rw [this, Option.getD_some]
  have hstart : startsWithIdentifier (before ++ "(o)".toList ++ after) ['#'] =
      startsWithIdentifier (before ++ digitsOf classes ++ after) ['#'] := by
    cases before with
    | nil =>
      have h1 : startsWithIdentifier ([] ++ "(o)".toList ++ after) ['#'] = false := rfl
      rw [h1]
      obtain ⟨c, cs, hcs, hdc⟩ := digitsOf_cons classes
      rw [hcs]
      have hne : c ≠ '#' := fun e => by rw [e] at hdc; revert hdc; decide
      have h2 : startsWithIdentifier ([] ++ (c :: cs) ++ after) ['#'] = (('#' == c) && true) := by
        show (('#' == c) && _) = _
        rfl
      rw [h2]
      simp [Ne.symm hne]
    | cons c cs => rfl
  unfold addLine
  rw [hstart, hpre]

/-- C83, the prior: what came before is scaled to the size of the image, unless patches are used or it was
scaled already, and joined with the third output of the data layer. -/
theorem C83_spatial_prior (conv : Str → D) (zero one : D) (f : Fields) (data : Conn) (classes : Nat)
    (loss : Bool) (st : State D) :
    let scale := f.method = .fcn ∧ st.upscaled = false
    let n := st.base + st.nodes.length
    addLine conv zero one f data classes loss "?spatialprior".toList st = .done { st with
      nodes := st.nodes ++
        (if scale then [⟨.upscale (toUInt f.factorx) (toUInt f.factory), [st.last], false⟩,
          ⟨.concat, [⟨n, 0, true⟩, ⟨data.node, 2, false⟩], false⟩]
        else [⟨.concat, [st.last, ⟨data.node, 2, false⟩], false⟩]),
      last := ⟨if scale then n + 1 else n, 0, true⟩,
      upscaled := st.upscaled || decide (f.method = .fcn) } := by
  intro scale n
  have hp : Plain (lineText "spatialprior" []) := ⟨by decide +kernel, by decide +kernel, by decide +kernel⟩
  have e : "?spatialprior".toList = lineText "spatialprior" [] := rfl
  rw [e, addLine_line conv zero one f data classes loss st hp (by decide +kernel)]
  have hl : layerLine conv zero one f data false (paramLine ["spatialprior".toList] []) st =
      .done (spatialLine f data st, false) := rfl
  rw [hl, Outcome.bind_done]
  have h1 : ∀ s : State D, addLoss loss data false one (scaleOutput f false s) = s := fun s => rfl
  rw [h1]
  obtain ⟨base, nodes, lastc, sa, sb, up, dr⟩ := st
  obtain ⟨m, rx, ry, fx, fy, ig⟩ := f
  cases up <;> cases m <;> simp [scale, n, spatialLine, State.add, upscaleBy, Nat.add_assoc]

theorem replaceFirst_word {pat text v : Str} {before after : List Str} (hs : ' ' ∉ pat) (hp : pat ≠ [])
    (h : ∀ w ∈ before, ¬ pat <:+: w) :
    replaceFirst pat text (joinSp (before ++ (pat ++ v) :: after)) =
      some (joinSp (before ++ (text ++ v) :: after)) := by
  unfold replaceFirst
  rw [joinSp_middle, joinSp_middle, find_skip_words hs hp before h, List.append_assoc pat,
    find_prefix (List.prefix_append _ _), Option.map_some, Option.map_some, Nat.zero_add, List.take_left,
    List.drop_length_add_append, List.drop_left, List.append_assoc, List.append_assoc]

/-- The parameters of the convolution a fully connected line stands for. -/
def asConvolution (before : Params) (n : Nat) (after : Params) : Params :=
  ("size".toList, .size 1 1) :: before ++ ("kernels".toList, .count n) :: after

theorem replace_full (ps : Params) : replaceFirst "fullyconnected".toList "convolutional size=1x1".toList
    (lineText "fullyconnected" ps) = some (lineText "convolutional" (("size".toList, .size 1 1) :: ps)) := by
  unfold lineText
  rw [List.map_cons, joinSp_cons, joinSp_cons, List.flatMap_cons]
  generalize (ps.map fun p => pairText (p.1, p.2.text)).flatMap (fun v => ' ' :: v) = rest
  rfl

/-- C83, fully connected layers: the line stands for a convolution with kernels of one value, whose other
parameters are those of the line. -/
theorem C83_fully_connected_partial (conv : Str → D) (zero one : D) (f : Fields) (data : Conn) (classes : Nat)
    (loss : Bool) (before after : Params) (n : Nat) (st : State D)
    (hb : ∀ p ∈ before, '=' ∉ p.1 ∧ '=' ∉ p.2.text ∧ ¬ "neurons".toList <:+ p.1)
    (ho : ¬ "(o)".toList <:+: lineText "fullyconnected" (before ++ ("neurons".toList, .count n) :: after))
    (hp : Plain (lineText "convolutional" (asConvolution before n after))) :
    addLine conv zero one f data classes loss
        (lineText "fullyconnected" (before ++ ("neurons".toList, .count n) :: after)) st =
      addLine conv zero one f data classes loss
        (lineText "convolutional" (asConvolution before n after)) st := by
  have hpre : preprocess f.method classes (lineText "fullyconnected" (before ++ ("neurons".toList, .count n) :: after)) =
      .done (lineText "convolutional" (asConvolution before n after)) := by
    have e2 : replaceFirst "neurons=".toList "kernels=".toList
        (lineText "convolutional" (("size".toList, .size 1 1) :: (before ++ ("neurons".toList, .count n) :: after))) =
        some (lineText "convolutional" (asConvolution before n after)) := by
      have key : ∀ k : Str, lineText "convolutional" (("size".toList, .size 1 1) :: (before ++ (k, .count n) :: after)) =
          joinSp (("?convolutional".toList :: pairText ("size".toList, (Value.size 1 1).text) ::
            before.map fun p => pairText (p.1, p.2.text)) ++ ((k ++ ['=']) ++ (Value.count n).text) ::
              after.map fun p => pairText (p.1, p.2.text)) := by
        intro k
        unfold lineText
        rw [List.map_cons, List.map_append, List.map_cons, List.cons_append, List.cons_append, joinSp_cons,
          joinSp_cons]
        unfold pairText
        simp
      have h1 := key "neurons".toList
      have h2 := key "kernels".toList
      rw [h1, show asConvolution before n after = ("size".toList, .size 1 1) :: (before ++ ("kernels".toList, .count n) :: after)
        from rfl, h2]
      refine replaceFirst_word (by decide +kernel) (by decide +kernel) ?_
      intro w hw
      simp only [List.mem_cons, List.mem_map] at hw
      rcases hw with rfl | rfl | ⟨p, hpm, rfl⟩
      · decide +kernel
      · decide +kernel
      · obtain ⟨g1, g2, g3⟩ := hb p hpm
        exact fun h => g3 ((infix_pair_iff g1 g2 (idf := "neurons".toList)).1 h)
    unfold preprocess
    rw [replaceFirst_none (by simp) ho, Option.getD_none]
    simp only []
    rw [replace_full]
    simp only []
    rw [e2, orThrow_some, Outcome.bind_done, if_neg]
    rw [find_none_of_not_infix (by simp) hp.flatten]
    simp
  have hpre' := preprocess_plain hp f.method classes
  unfold addLine
  have hh : ∀ type ps, startsWithIdentifier (lineText type ps) ['#'] = false := fun type ps => rfl
  rw [hh, hh, hpre, hpre']

/-- C83, fully connected layers: a line that does not say how many neurons ends the program. -/
theorem C83_no_neurons (conv : Str → D) (zero one : D) (f : Fields) (data : Conn) (classes : Nat)
    (loss : Bool) (ps : Params) (st : State D)
    (hb : ∀ p ∈ ps, '=' ∉ p.1 ∧ '=' ∉ p.2.text ∧ ¬ "neurons".toList <:+ p.1)
    (ho : ¬ "(o)".toList <:+: lineText "fullyconnected" ps) :
    addLine conv zero one f data classes loss (lineText "fullyconnected" ps) st = .fatal := by
  have e2 : replaceFirst "neurons=".toList "kernels=".toList
      (lineText "convolutional" (("size".toList, .size 1 1) :: ps)) = none := by
    unfold replaceFirst
    have e : lineText "convolutional" (("size".toList, .size 1 1) :: ps) =
        joinSp ("?convolutional".toList :: pairText ("size".toList, (Value.size 1 1).text) ::
          ps.map fun p => pairText (p.1, p.2.text)) := by
      unfold lineText
      rw [List.map_cons, joinSp_cons, joinSp_cons]
      rfl
    rw [e, find_words_none (by decide +kernel) (by decide +kernel)]
    · rfl
    · intro w hw
      simp only [List.mem_cons, List.mem_map] at hw
      rcases hw with rfl | rfl | ⟨p, hpm, rfl⟩
      · decide +kernel
      · decide +kernel
      · obtain ⟨g1, g2, g3⟩ := hb p hpm
        exact fun h => g3 ((infix_pair_iff g1 g2 (idf := "neurons".toList)).1 h)
  have hpre : preprocess f.method classes (lineText "fullyconnected" ps) = .fatal := by
    unfold preprocess
    rw [replaceFirst_none (by simp) ho, Option.getD_none]
    simp only []
    rw [replace_full]
    simp only []
    rw [e2]
    rfl
  unfold addLine
  have hh : startsWithIdentifier (lineText "fullyconnected" ps) ['#'] = false := rfl
  rw [hh, if_neg Bool.false_ne_true, hpre]
  rfl

/-! ## Where lines are misread -/

/-- A name that ends in a known one is read in its place. -/
theorem C83_longer_name :
    addLine (fun _ => 0) 0 1 {} ⟨0, 0, false⟩ 3 true "?convolutional kernels=4 maxsize=5x5 size=3x3".toList
        ⟨1, [], ⟨0, 0, false⟩, [], [], false, 0⟩ =
      addLine (fun _ => 0) 0 1 {} ⟨0, 0, false⟩ 3 true "?convolutional kernels=4 size=5x5".toList
        ⟨1, [], ⟨0, 0, false⟩, [], [], false, 0⟩ ∧
    addLine (fun _ => 0) 0 1 {} ⟨0, 0, false⟩ 3 true "?convolutional kernels=4 size=3x3".toList
        ⟨1, [], ⟨0, 0, false⟩, [], [], false, 0⟩ ≠
      addLine (fun _ => 0) 0 1 {} ⟨0, 0, false⟩ 3 true "?convolutional kernels=4 size=5x5".toList
        ⟨1, [], ⟨0, 0, false⟩, [], [], false, 0⟩ := by decide +kernel

/-- A size of one number takes the second from another parameter. -/
theorem C83_half_a_size :
    addLine (fun _ => 0) 0 1 {} ⟨0, 0, false⟩ 3 true "?amaxpooling size=3 stride=1x2".toList
        ⟨1, [], ⟨0, 0, false⟩, [], [], false, 0⟩ =
      addLine (fun _ => 0) 0 1 {} ⟨0, 0, false⟩ 3 true "?amaxpooling size=3x2 stride=1x2".toList
        ⟨1, [], ⟨0, 0, false⟩, [], [], false, 0⟩ := by decide +kernel

/-- A layer whose line contains the word `flatten` anywhere is left out, without a message, unless patches
are used. -/
theorem C83_flatten_drops (conv : Str → D) (zero one : D) (f : Fields) (hf : f.method = .fcn) (data : Conn)
    (classes : Nat) (loss : Bool) (line : Str) (st : State D) (h1 : ¬ "(o)".toList <:+: line)
    (h2 : ¬ "fullyconnected".toList <:+: line) (h3 : "flatten".toList <:+: line) :
    addLine conv zero one f data classes loss line st = .done st := by
  unfold addLine
  split
  · rfl
  have hpre : preprocess f.method classes line = .done [] := by
    unfold preprocess
    rw [replaceFirst_none (by simp) h1, Option.getD_none]
    simp only []
    rw [replaceFirst_none (by simp) h2]
    simp only [Outcome.bind_done]
    rw [if_pos ⟨hf, find_of_infix h3⟩]
  rw [hpre, Outcome.bind_done]
  rfl

/-! ## Non-vacuity -/

example : lineText "convolutional" [("stride".toList, .size 2 1), ("kernels".toList, .count 12),
    ("llr".toList, .word "0.5".toList), ("size".toList, .size 5 3)] =
    "?convolutional stride=2x1 kernels=12 llr=0.5 size=5x3".toList := by decide +kernel

theorem typed_of {known : Vocabulary} {ps : Params} (h1 : ∀ p ∈ ps, '=' ∉ p.1 ∧ ' ' ∉ p.1)
    (h2 : ∀ p ∈ ps, p.2.Ok)
    (h3 : ∀ p ∈ ps, ∀ e ∈ known, e.1.toList <:+ p.1 → p.1 = e.1.toList ∧ p.2.kind ∈ e.2) : Typed known ps :=
  ⟨h1, h2, fun p hp n k hn => h3 p hp (n, k) hn⟩

/-- A grouped convolution with all its parameters and one it does not know. -/
def exampleParams : Params :=
  [("stride".toList, .size 2 1), ("kernels".toList, .count 12), ("group".toList, .count 4),
   ("llr".toList, .word "0.5".toList), ("colour".toList, .word "blue".toList), ("size".toList, .size 5 3)]

example (conv : Str → D) (zero one : D) (f : Fields) (data : Conn) (st : State D) :
    addLine conv zero one f data 3 true
        "?convolutional stride=2x1 kernels=12 group=4 llr=0.5 colour=blue size=5x3".toList st =
      .done { st with
        nodes := st.nodes ++ [⟨.conv ⟨12, 5, 3, 2, 1, 0, 0, 4⟩ st.draws zero (conv "0.5".toList), [st.last], false⟩],
        last := ⟨st.base + st.nodes.length, 0, true⟩,
        draws := st.draws + 1 } := by
  have h : Typed convolutionNames exampleParams := by
    refine typed_of (by decide +kernel) ?_ (by decide +kernel)
    intro p hp
    simp only [exampleParams, List.mem_cons, List.not_mem_nil, or_false] at hp
    rcases hp with rfl | rfl | rfl | rfl | rfl | rfl <;> simp [Value.Ok] <;> decide
  exact C83_convolution_partial conv zero one f data 3 true exampleParams st h
    ⟨by decide +kernel, by decide +kernel, by decide +kernel⟩ (by decide +kernel)

example (conv : Str → D) (zero one : D) (f : Fields) (data : Conn) (st : State D) :
    addLine conv zero one f data 3 true "?fullyconnected dropout=0.5 neurons=(o)".toList st =
      addLine conv zero one f data 3 true "?convolutional size=1x1 dropout=0.5 kernels=3".toList st := by
  refine (C83_classes conv zero one f data 3 true "?fullyconnected dropout=0.5 neurons=".toList [] st
    (by decide +kernel) (by decide +kernel)).trans ?_
  exact C83_fully_connected_partial conv zero one f data 3 true [("dropout".toList, .word "0.5".toList)] [] 3 st
    (by decide +kernel) (by decide +kernel) ⟨by decide +kernel, by decide +kernel, by decide +kernel⟩

example (conv : Str → D) (zero one : D) (f : Fields) (data : Conn) (st : State D) :
    addLine conv zero one f data 3 true "?fullyconnected dropout=0.5".toList st = .fatal :=
  C83_no_neurons conv zero one f data 3 true [("dropout".toList, .word "0.5".toList)] st
    (by decide +kernel) (by decide +kernel)

example : addLine (fun _ => 7) 0 1 ⟨.fcn, 10, 10, 2, 4, false⟩ ⟨0, 0, false⟩ 3 true "?output weight=0.5".toList
    ⟨1, [], ⟨0, 0, false⟩, [], [], false, 0⟩ =
    .done ⟨1, [⟨.sigmoid, [⟨0, 0, false⟩], false⟩, ⟨.upscale 2 4, [⟨1, 0, true⟩], true⟩,
      ⟨.error 7, [⟨2, 0, true⟩, ⟨0, 1, false⟩, ⟨0, 3, false⟩], false⟩], ⟨2, 0, true⟩, [], [], false, 0⟩ := by
  decide +kernel

example : Typed normalisationNames [("method".toList, .word "across".toList), ("size".toList, .count 5),
    ("beta".toList, .word "0.75".toList)] := by
  refine typed_of (by decide +kernel) ?_ (by decide +kernel)
  intro p hp
  simp only [List.mem_cons, List.not_mem_nil, or_false] at hp
  rcases hp with rfl | rfl | rfl <;> simp [Value.Ok] <;> decide

end

end CN24.Props
