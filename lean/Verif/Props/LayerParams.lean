import Verif.Model.LayerParams
import Verif.Model.Convolution
import Verif.Proof.LayerParams

/-
C82: a layer made from a descriptor has the parameters written in it.
-/

namespace CN24.Props
open CN24 CN24.Config CN24.LayerParams

theorem documented_of {type : Str} {ps : Params} (h1 : type ≠ []) (h2 : ∀ c ∈ type, lower c = true)
    (h3 : ∀ p ∈ ps, p.1 ≠ []) (h4 : ∀ p ∈ ps, ∀ c ∈ p.1, lower c = true) (h5 : ∀ p ∈ ps, p.2.Ok)
    (h6 : ∀ p ∈ ps, ∀ n k, (n, k) ∈ vocabulary → n.toList <:+ p.1 → p.1 = n.toList ∧ p.2.kind ∈ k) :
    Documented type ps := by
  refine ⟨⟨fun p hp => ⟨fun hc => ?_, fun hc => ?_⟩, h5, h6⟩, h1, h2, h3, h4⟩
  · have := h4 p hp _ hc; revert this; decide
  · have := h4 p hp _ hc; revert this; decide

theorem _root_.CN24.LayerParams.Documented.pairOk {type : Str} {ps : Params} (h : Documented type ps) :
    ∀ q ∈ ps.map pairOf, PairOk valueChar q := by
  intro q hq
  obtain ⟨p, hp, rfl⟩ := List.mem_map.1 hq
  exact ⟨h.name_ne p hp, h.name_lower p hp, value_not_eq (h.value_ok p hp)⟩

theorem readable {n : String} {k : List Kind} (hn : (n, k) ∈ vocabulary) : Readable n k := by
  have : ∀ e ∈ vocabulary, Readable e.1 e.2 := by decide
  exact this _ hn

theorem spells_ok {d : Descr} {type : Str} {ps : Params} (h : Documented type ps) (hs : Spells d type ps) :
    d.Ok valueChar ∧ d.config = paramLine [] ps := by
  refine ⟨⟨by rw [hs.1]; exact h.type_ne, by rw [hs.1]; exact h.type_lower, ?_⟩, ?_⟩
  · intro qs hqs q hq
    have e := hs.2
    rw [hqs, Option.getD_some] at e
    rw [e] at hq
    exact h.pairOk q hq
  · unfold Descr.config
    rw [hs.2]; rfl

/-- C82: for every documented descriptor, whatever the order and the number of its parameters, the
layer made from it is the one described: every parameter has the value written under its name (the
first, if the name occurs more than once) or the documented default, other parameters have no effect,
and an unknown type gives no layer.  Missing for the full property: names that only end in a known
name and sizes without `x`, for which it is false, see `C82_longer_name` and `C82_half_a_size`. -/
theorem C82_parameters_partial {D : Type _} (conv : Str → D) (zero one : D) (d : Descr) (type : Str)
    (ps : Params) (h : Documented type ps) (hs : Spells d type ps)
    (hlen : d.text.length < 18446744073709551616) :
    build conv zero one d.text = some (described conv zero one type ps) := by
  obtain ⟨hok, hcfg⟩ := spells_ok h hs
  have hl : (paramLine [] ps).length < 18446744073709551616 := by
    rw [← hcfg]
    unfold Descr.config
    unfold Descr.text at hlen
    cases hp : d.params with
    | none => simp [joinSp]
    | some qs =>
      rw [hp] at hlen
      simp only [Option.getD_some, List.length_append, List.length_cons] at hlen ⊢
      omega
  have hsz : ∀ n old, (n, [Kind.size]) ∈ vocabulary →
      parseKernelSize (paramLine [] ps) n.toList old = some (sizeGiven ps n old) :=
    fun n old hn => read_size h.toTyped (by simp) hn (readable hn) old hl
  have hct : ∀ n old, (n, [Kind.count]) ∈ vocabulary →
      parseCount (paramLine [] ps) n.toList old = some (countGiven ps n old) :=
    fun n old hn => read_count h.toTyped (by simp) hn (readable hn) old
  have hwd : ∀ n old, (n, [Kind.count, Kind.word]) ∈ vocabulary →
      parseDatum conv (paramLine [] ps) n.toList old =
        some (((wordGiven ps n).map conv).getD old) :=
    fun n old hn => read_word conv h.toTyped (by simp) hn (readable hn) old
  have hconv : LayerParams.convolution conv zero one (paramLine [] ps) =
      some (.convolution (sizeGiven ps "size" (0, 0)) (sizeGiven ps "stride" (1, 1)) (sizeGiven ps "pad" (0, 0))
        (countGiven ps "kernels" 0) (countGiven ps "group" 1) (((wordGiven ps "dropout").map conv).getD zero)
        (((wordGiven ps "llr").map conv).getD one)) := by
    unfold LayerParams.convolution convolutionFromConfig
    rw [hsz "size" _ (by decide), hsz "stride" _ (by decide), hsz "pad" _ (by decide),
      hct "kernels" _ (by decide), hct "group" _ (by decide), hct "seed" _ (by decide),
      hwd "dropout" _ (by decide), hwd "llr" _ (by decide)]
    rfl
  have hadv : (LayerParams.advancedMaxPooling (paramLine [] ps) : Option (Layer D)) =
      some (.advancedMaxPooling (sizeGiven ps "size" (1, 1)) (sizeGiven ps "stride" (sizeGiven ps "size" (1, 1)))) := by
    unfold LayerParams.advancedMaxPooling
    rw [hsz "size" _ (by decide), Option.bind_some, hsz "stride" _ (by decide)]
    rfl
  have hhm : LayerParams.hmax conv zero one (paramLine [] ps) =
      some (.hmax (((wordGiven ps "mu").map conv).getD one) (((wordGiven ps "weight").map conv).getD zero)) := by
    unfold LayerParams.hmax
    rw [hwd "mu" _ (by decide), hwd "weight" _ (by decide)]
    rfl
  have hvalid := (isValid_iff _).2 ⟨d, hok, rfl⟩
  have hne : ¬ type.length = 0 := by
    have := List.length_pos_iff.2 h.type_ne
    omega
  unfold build constructLayer described
  rw [hvalid, extractConfiguration_text hok, extractLayerType_text hok, hcfg, hs.1]
  simp only [Bool.not_true, Bool.false_eq_true, if_false, if_neg hne]
  by_cases h1 : type = "convolution".toList
  · simp only [if_pos h1, hconv, Option.map_some]
  simp only [if_neg h1]
  by_cases h2 : type = "maxpooling".toList
  · simp only [if_pos h2, LayerParams.maxPooling]
    rw [hsz "size" _ (by decide)]; rfl
  simp only [if_neg h2]
  by_cases h3 : type = "amaxpooling".toList
  · simp only [if_pos h3, hadv, Option.map_some]
  simp only [if_neg h3]
  by_cases h4 : type = "tanh".toList
  · simp only [if_pos h4]
  simp only [if_neg h4]
  by_cases h5 : type = "sigm".toList
  · simp only [if_pos h5]
  simp only [if_neg h5]
  by_cases h6 : type = "relu".toList
  · simp only [if_pos h6]
  simp only [if_neg h6]
  by_cases h7 : type = "gradientaccumulation".toList
  · simp only [if_pos h7, LayerParams.gradientAccumulation]
    rw [hct "outputs" _ (by decide)]; rfl
  simp only [if_neg h7]
  by_cases h8 : type = "resize".toList
  · simp only [if_pos h8, LayerParams.resize]
    rw [hsz "border" _ (by decide)]; rfl
  simp only [if_neg h8]
  by_cases h9 : type = "hmax".toList
  · simp only [if_pos h9, hhm, Option.map_some]
  simp only [if_neg h9]

/-- Two lists of parameters that agree on the names a layer reads describe the same layer. -/
theorem described_congr {D : Type _} (conv : Str → D) (zero one : D) (type : Str) {ps qs : Params}
    (h : ∀ n k, (n, k) ∈ vocabulary → n ≠ "seed" → first n.toList ps = first n.toList qs) :
    described conv zero one type ps = described conv zero one type qs := by
  have e : ∀ n k, (n, k) ∈ vocabulary ∧ n ≠ "seed" → (∀ old, sizeGiven ps n old = sizeGiven qs n old) ∧
      (∀ old, countGiven ps n old = countGiven qs n old) ∧ wordGiven ps n = wordGiven qs n := by
    intro n k hn
    unfold sizeGiven countGiven wordGiven
    rw [h n k hn.1 hn.2]
    exact ⟨fun _ => rfl, fun _ => rfl, rfl⟩
  unfold described
  simp only [(e "size" [.size] (by decide)).1, (e "stride" [.size] (by decide)).1, (e "pad" [.size] (by decide)).1,
    (e "border" [.size] (by decide)).1,
    (e "kernels" [.count] (by decide)).2.1, (e "group" [.count] (by decide)).2.1,
    (e "outputs" [.count] (by decide)).2.1, (e "dropout" [.count, .word] (by decide)).2.2,
    (e "llr" [.count, .word] (by decide)).2.2, (e "mu" [.count, .word] (by decide)).2.2,
    (e "weight" [.count, .word] (by decide)).2.2]

theorem first_perm {name : Str} {ps qs : Params} (hp : ps.Perm qs) (hn : (ps.map Prod.fst).Nodup) :
    first name ps = first name qs := by
  induction hp with
  | nil => rfl
  | cons x _ ih =>
    obtain ⟨k, v⟩ := x
    rw [List.map_cons, List.nodup_cons] at hn
    unfold first
    rw [ih hn.2]
  | swap x y l =>
    obtain ⟨k, v⟩ := x
    obtain ⟨k', v'⟩ := y
    rw [List.map_cons, List.map_cons, List.nodup_cons] at hn
    have hne : k' ≠ k := fun e => hn.1 (by simp [e])
    unfold first
    unfold first
    by_cases h1 : k = name
    · have h2 : k' ≠ name := fun e => hne (e.trans h1.symm)
      simp [h1, h2]
    · simp [h1]
  | trans h1 _ ih1 ih2 =>
    rw [ih1 hn, ih2 (((h1.map Prod.fst).nodup_iff).1 hn)]

/-- C82: the order of the parameters does not matter, for every documented descriptor that gives
every name once. -/
theorem C82_order_partial {D : Type _} (conv : Str → D) (zero one : D) (d e : Descr) (type : Str)
    (ps qs : Params) (h : Documented type ps) (hp : ps.Perm qs) (hn : (ps.map Prod.fst).Nodup)
    (hd : Spells d type ps) (he : Spells e type qs)
    (hld : d.text.length < 18446744073709551616) (hle : e.text.length < 18446744073709551616) :
    build conv zero one d.text = build conv zero one e.text := by
  have h' : Documented type qs := documented_of h.type_ne h.type_lower
    (fun p hq => h.name_ne p (hp.mem_iff.2 hq)) (fun p hq => h.name_lower p (hp.mem_iff.2 hq))
    (fun p hq => h.value_ok p (hp.mem_iff.2 hq)) (fun p hq => h.kinds p (hp.mem_iff.2 hq))
  rw [C82_parameters_partial conv zero one d type ps h hd hld,
    C82_parameters_partial conv zero one e type qs h' he hle,
    described_congr conv zero one type (fun n k _ _ => first_perm hp hn)]

/-! ### Seeds -/

/-- The value after a seed was put in the place of its leading digits. -/
def reseedValue (n : Nat) : Value → Value
  | .count _ => .count n
  | .size _ b => .size n b
  | .word s => .word (digitsOf n ++ s.dropWhile digit)

def reseedParam (n : Nat) (p : Str × Value) : Str × Value :=
  if "seed".toList <:+ p.1 ∧ (p.2.text.head?.map digit) = some true then (p.1, reseedValue n p.2) else p

theorem dropWhile_digits' (n : Nat) : (digitsOf n).dropWhile digit = [] := by
  have := dropWhile_digits n [] (by simp)
  rwa [List.append_nil] at this

theorem reseed_pairOf (n : Nat) (p : Str × Value) : pairOf (reseedParam n p) = reseed n (pairOf p) := by
  obtain ⟨k, v⟩ := p
  unfold reseedParam reseed
  by_cases h : "seed".toList <:+ k ∧ (v.text.head?.map digit) = some true
  · rw [if_pos h]
    refine Eq.trans ?_ (if_pos h).symm
    cases v with
    | count m =>
      show (k, digitsOf n) = (k, digitsOf n ++ (digitsOf m).dropWhile digit)
      rw [dropWhile_digits', List.append_nil]
    | size a b =>
      show (k, digitsOf n ++ 'x' :: digitsOf b) = (k, digitsOf n ++ (digitsOf a ++ 'x' :: digitsOf b).dropWhile digit)
      rw [dropWhile_digits a ('x' :: digitsOf b) (by intro c cs he; cases he; decide)]
    | word s => rfl
  · rw [if_neg h]
    exact (if_neg h).symm

theorem digitsOf_alnumDot {n : Nat} {c : Char} (h : c ∈ digitsOf n) : alnumDot c = true := by
  have := digitsOf_isDigit h
  unfold Char.isDigit at this
  unfold alnumDot
  simp only [ge_iff_le, Bool.and_eq_true, decide_eq_true_eq] at this
  have h1 : '0' ≤ c := this.1
  have h2 : c ≤ '9' := this.2
  simp [h1, h2]

theorem reseedParam_documented {type : Str} {ps : Params} (h : Documented type ps) (n : Nat)
    (hn : n ≤ 2147483647) : Documented type (ps.map (reseedParam n)) := by
  have hfst : ∀ p, (reseedParam n p).1 = p.1 := fun p => by unfold reseedParam; split <;> rfl
  have hkind : ∀ p, (reseedParam n p).2.kind = p.2.kind := fun p => by
    unfold reseedParam
    split
    · cases p.2 <;> rfl
    · rfl
  have hok : ∀ p, p.2.Ok → (reseedParam n p).2.Ok := fun p hp => by
    unfold reseedParam
    split
    · obtain ⟨k, v⟩ := p
      cases v with
      | count m => exact hn
      | size a b => exact ⟨hn, hp.2⟩
      | word s =>
        refine ⟨fun he => ?_, fun c hc => ?_⟩
        · exact digitsOf_ne_nil n (List.append_eq_nil_iff.1 he).1
        · rcases List.mem_append.1 hc with hc | hc
          · exact digitsOf_alnumDot hc
          · exact hp.2 c ((List.dropWhile_sublist _).subset hc)
    · exact hp
  refine documented_of h.type_ne h.type_lower ?_ ?_ ?_ ?_ <;> intro q hq <;>
    obtain ⟨p, hp, rfl⟩ := List.mem_map.1 hq
  · rw [hfst]; exact h.name_ne p hp
  · rw [hfst]; exact h.name_lower p hp
  · exact hok p (h.value_ok p hp)
  · intro m k hm hs
    rw [hfst] at hs ⊢
    rw [hkind]
    exact h.kinds p hp m k hm hs

theorem seed_not_suffix {n : String} {k : List Kind} (hn : (n, k) ∈ vocabulary) (hne : n ≠ "seed") :
    ¬ "seed".toList <:+ n.toList := by
  have : ∀ e ∈ vocabulary, e.1 ≠ "seed" → ¬ "seed".toList <:+ e.1.toList := by decide
  exact this _ hn hne

theorem first_reseed {name : Str} (hname : ¬ "seed".toList <:+ name) (n : Nat) (ps : Params) :
    first name (ps.map (reseedParam n)) = first name ps := by
  induction ps with
  | nil => rfl
  | cons p ps ih =>
    obtain ⟨k, v⟩ := p
    rw [List.map_cons]
    by_cases hk : k = name
    · have e : reseedParam n (k, v) = (k, v) := by
        unfold reseedParam
        rw [if_neg (fun h => hname (hk ▸ h.1))]
      rw [e]
      unfold first
      rw [if_pos hk, if_pos hk]
    · have e : ∃ w, reseedParam n (k, v) = (k, w) := by
        unfold reseedParam
        split
        · exact ⟨_, rfl⟩
        · exact ⟨_, rfl⟩
      obtain ⟨w, e⟩ := e
      rw [e]
      unfold first
      rw [if_neg hk, if_neg hk, ih]

theorem first_append {name : Str} (ps : Params) {q : Str × Value} (hq : q.1 ≠ name) :
    first name (ps ++ [q]) = first name ps := by
  obtain ⟨k', v'⟩ := q
  induction ps with
  | nil => simp only [List.nil_append, first, if_neg hq]
  | cons p ps ih =>
    obtain ⟨k, v⟩ := p
    rw [List.cons_append]
    unfold first
    rw [ih]

/-- C82: putting a seed into a documented descriptor changes no parameter of the layer made from it:
layers that differ in their seeds agree in everything else (and, as the seed does not reach the
generator, see `C17_convolution_ignores_seed`, in everything). -/
theorem C82_seed_partial {D : Type _} (conv : Str → D) (zero one : D) (d : Descr) (type : Str)
    (ps : Params) (h : Documented type ps) (hs : Spells d type ps) (n : Nat) (hn : n ≤ 2147483647)
    (hl : d.text.length < 18446744073709551616)
    (hl' : (injectSeed d.text n).length < 18446744073709551616) :
    build conv zero one (injectSeed d.text n) = build conv zero one d.text := by
  obtain ⟨hok, _⟩ := spells_ok h hs
  have htxt := injectSeed_text d hok n
  rw [C82_parameters_partial conv zero one d type ps h hs hl]
  have e2 : d.params.getD [] = ps.map pairOf := hs.2
  by_cases hseed : ∃ p ∈ d.params.getD [], "seed".toList <:+ p.1 ∧ (p.2.head?.map digit) = some true
  · rw [if_pos hseed, e2, List.map_map] at htxt
    have hsp : Spells ⟨d.name, some (ps.map (reseed n ∘ pairOf))⟩ type (ps.map (reseedParam n)) := by
      refine ⟨hs.1, ?_⟩
      rw [Option.getD_some, List.map_map]
      exact List.map_congr_left (fun p _ => (reseed_pairOf n p).symm)
    rw [htxt] at hl' ⊢
    rw [C82_parameters_partial conv zero one _ type _ (reseedParam_documented h n hn) hsp hl']
    congr 1
    exact described_congr conv zero one type
      (fun m k hm hne => first_reseed (seed_not_suffix hm hne) n ps)
  · rw [if_neg hseed, e2] at htxt
    have hdoc : Documented type (ps ++ [("seed".toList, .count n)]) := by
      have hv : ∀ m k, (m, k) ∈ vocabulary → m.toList <:+ "seed".toList →
          "seed".toList = m.toList ∧ Kind.count ∈ k := by
        have : ∀ e ∈ vocabulary, e.1.toList <:+ "seed".toList → "seed".toList = e.1.toList ∧ Kind.count ∈ e.2 := by
          decide
        exact fun m k hm => this (m, k) hm
      refine documented_of h.type_ne h.type_lower ?_ ?_ ?_ ?_ <;> intro q hq <;>
        rcases List.mem_append.1 hq with hq | hq
      · exact h.name_ne q hq
      · rw [List.mem_singleton.1 hq]; simp
      · exact h.name_lower q hq
      · rw [List.mem_singleton.1 hq]
        show ∀ c ∈ "seed".toList, lower c = true
        decide
      · exact h.value_ok q hq
      · rw [List.mem_singleton.1 hq]; exact hn
      · exact h.kinds q hq
      · rw [List.mem_singleton.1 hq]; exact hv
    have hsp : Spells ⟨d.name, some (ps.map pairOf ++ [("seed".toList, digitsOf n)])⟩ type
        (ps ++ [("seed".toList, .count n)]) := by
      refine ⟨hs.1, ?_⟩
      rw [Option.getD_some, List.map_append]
      rfl
    rw [htxt] at hl' ⊢
    rw [C82_parameters_partial conv zero one _ type _ hdoc hsp hl']
    congr 1
    exact described_congr conv zero one type
      (fun m k hm hne => first_append ps (fun e => seed_not_suffix hm hne (e ▸ List.suffix_refl _)))

/-! ### Where the property fails -/

/-- A name that only ends in a known one is taken for it. -/
theorem C82_longer_name :
    build (fun s => s) [] [] "convolution(kernelsize=5x5 size=3x3 kernels=4)".toList =
      some (some (.convolution (5, 5) (1, 1) (0, 0) 4 1 [] [])) := by decide +kernel

/-- A size that is only one number takes its second number from another parameter. -/
theorem C82_half_a_size :
    build (fun s => s) [] [] "convolution(size=3 kernels=4 pad=1x2)".toList =
      some (some (.convolution (3, 2) (1, 1) (1, 2) 4 1 [] [])) := by decide +kernel

/-- The members of a convolution made from a descriptor, as the rest of the layer sees them. -/
def convParams (kernel stride pad : Nat × Nat) (kernels group : Nat) : Convolution.Params :=
  ⟨kernels, kernel.1, kernel.2, stride.1, stride.2, pad.1, pad.2, group⟩

/-- Nothing is checked: parameters the other constructor refuses with an error are accepted from a
descriptor, and connecting such a layer divides by zero, for every input. -/
theorem C82_not_checked {D : Type _} (conv : Str → D) (zero one : D) :
    build conv zero one "convolution(size=3x3 stride=0x0 kernels=4)".toList =
      some (some (.convolution (3, 3) (0, 0) (0, 0) 4 1 zero one)) ∧
    Convolution.construct (convParams (3, 3) (0, 0) (0, 0) 4 1) = .fatal ∧
    ∀ w h m, Convolution.createOutputs (convParams (3, 3) (0, 0) (0, 0) 4 1) w h m = .undefined := by
  refine ⟨?_, by decide, fun w h m => rfl⟩
  have hdoc : Documented "convolution".toList
      [("size".toList, .size 3 3), ("stride".toList, .size 0 0), ("kernels".toList, .count 4)] := by
    refine documented_of (by decide) (by decide) (by decide) (by decide) ?_ ?_
    · intro p hp
      simp only [List.mem_cons, List.not_mem_nil, or_false] at hp
      rcases hp with rfl | rfl | rfl <;> simp [Value.Ok]
    · intro p hp n k hn
      have : ∀ p ∈ [("size".toList, Value.size 3 3), ("stride".toList, .size 0 0), ("kernels".toList, .count 4)],
        ∀ e ∈ vocabulary, e.1.toList <:+ p.1 → p.1 = e.1.toList ∧ p.2.kind ∈ e.2 := by decide +kernel
      exact this p hp (n, k) hn
  have := C82_parameters_partial conv zero one ⟨"convolution".toList, some
    [("size".toList, "3x3".toList), ("stride".toList, "0x0".toList), ("kernels".toList, "4".toList)]⟩
    _ _ hdoc ⟨rfl, by decide⟩ (by decide)
  have e : Descr.text ⟨"convolution".toList, some
    [("size".toList, "3x3".toList), ("stride".toList, "0x0".toList), ("kernels".toList, "4".toList)]⟩ =
    "convolution(size=3x3 stride=0x0 kernels=4)".toList := by decide
  rw [e] at this
  rw [this]
  rfl

/-- Non-vacuity: a descriptor with parameters of every kind, and one the layer does not know, is
documented, and so is the one with its parameters in another order. -/
example : Documented "convolution".toList
    [("kernels".toList, .count 16), ("llr".toList, .word "0.5".toList), ("size".toList, .size 7 5),
     ("colour".toList, .word "blue".toList), ("seed".toList, .count 3)] := by
  refine documented_of (by decide) (by decide) (by decide) (by decide) ?_ ?_
  · intro p hp
    simp only [List.mem_cons, List.not_mem_nil, or_false] at hp
    rcases hp with rfl | rfl | rfl | rfl | rfl <;> simp [Value.Ok] <;> decide
  · intro p hp n k hn
    have : ∀ p ∈ [("kernels".toList, Value.count 16), ("llr".toList, .word "0.5".toList),
        ("size".toList, .size 7 5), ("colour".toList, .word "blue".toList), ("seed".toList, .count 3)],
      ∀ e ∈ vocabulary, e.1.toList <:+ p.1 → p.1 = e.1.toList ∧ p.2.kind ∈ e.2 := by decide +kernel
    exact this p hp (n, k) hn

example : build (fun s => s) "0".toList "1".toList
    "convolution(kernels=16 llr=0.5 size=7x5 colour=blue seed=3)".toList =
    some (some (.convolution (7, 5) (1, 1) (0, 0) 16 1 "0".toList "0.5".toList)) ∧
    build (fun s => s) "0".toList "1".toList "amaxpooling(size=3x2)".toList =
      some (some (.advancedMaxPooling (3, 2) (3, 2))) ∧
    build (fun s => s) "0".toList "1".toList "hmax(mu=2)".toList =
      some (some (.hmax "2".toList "0".toList)) ∧
    build (fun s => s) "0".toList "1".toList "resize".toList = some (some (.resize (0, 0))) ∧
    build (fun s => s) "0".toList "1".toList "dense(size=3x2)".toList = some none := by decide +kernel

end CN24.Props
