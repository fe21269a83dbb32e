import Verif.Proof.NetConfig

/-
C56: reading a network description.
-/

namespace CN24.Props
open CN24 CN24.Config CN24.Net CN24.NetConfig

section Sizes
variable {D : Type _}

/-- The text of a description: a line per item, then the output line. -/
def descriptionText (items : List Item) : Str :=
  joinLines (items.map Item.text ++ ["?output".toList])

theorem descriptionLines {items : List Item} (h : ∀ i ∈ items, '\n' ∉ i.text) :
    linesOf (descriptionText items) = items.map Item.text ++ ["?output".toList] := by
  refine linesOf_joinLines (by simp) ?_
  intro l hl
  rcases List.mem_append.1 hl with hl | hl
  · obtain ⟨i, hi, rfl⟩ := List.mem_map.1 hl
    exact h i hi
  · rw [List.mem_singleton] at hl
    rw [hl]
    decide +kernel

/-- C56, fully convolutional mode: for every chain of convolutions, fully connected layers, poolings and
activations (with comments and settings between them), every image whose size is a multiple of the
reduction and every number of classes, reading the description succeeds, all layers accept their inputs,
exactly one node is the output and its output has the size of the image; the loss layer, if wanted,
accepts matching labels.  Missing for the full property: borders in one direction only
(`C56_border_in_one_direction`), descriptions that join and scale by hand. -/
theorem C56_fully_convolutional_size_partial (conv : Str → D) (zero one : D) (items : List Item)
    (training loss : Bool) (classes nx ny ss m base : Nat) (data : Conn) (ds : List Shape)
    (hok : ∀ i ∈ items, i.Ok) (hnl : ∀ i ∈ items, '\n' ∉ i.text)
    (hm : ¬ (training = true ∧ Item.patches ∈ items))
    (hborder : 0 < field (geoX items) ↔ 0 < field (geoY items))
    (hnx : 0 < nx) (hny : 0 < ny)
    (bx : field (geoX items) + total (geoX items) * nx < 2147483648)
    (by' : field (geoY items) + total (geoY items) * ny < 2147483648)
    (hb : data.node < base)
    (hd : ds[data.buffer]? = some ⟨ss, total (geoX items) * nx, total (geoY items) * ny, m⟩)
    (hl : LossFits loss ds ⟨ss, total (geoX items) * nx, total (geoY items) * ny, mapsOf items m⟩) :
    ∃ f st known, construct (linesOf (descriptionText items)) training = .done f ∧
      addLayers conv zero one f (linesOf (descriptionText items)) data base classes loss = .done st ∧
      shapes data.node base ds st.nodes [] = .done known ∧
      OutputShape st.nodes known
        ⟨ss, total (geoX items) * nx, total (geoY items) * ny, mapsOf items m⟩ := by
  rw [descriptionLines hnl]
  have tx := Nat.le_mul_of_pos_right (total (geoX items)) hnx
  have ty := Nat.le_mul_of_pos_right (total (geoY items)) hny
  have hc := construct_items training items hok (by omega) (by omega)
  have hmeth : methodOf training items .fcn = .fcn := by unfold methodOf; rw [if_neg hm]
  rw [hmeth] at hc
  simp only [if_neg (show ¬ Method.fcn = Method.patch by decide)] at hc
  generalize hf : (⟨.fcn, (field (geoX items) : Nat), (field (geoY items) : Nat),
    (total (geoX items) : Nat), (total (geoY items) : Nat), false⟩ : Fields) = f at hc
  have hfm : f.method = .fcn := by rw [← hf]
  have hfx : f.factorx = (total (geoX items) : Nat) := by rw [← hf]
  have hfy : f.factory = (total (geoY items) : Nat) := by rw [← hf]
  have hrx : f.rfx = (field (geoX items) : Nat) := by rw [← hf]
  have hry : f.rfy = (field (geoY items) : Nat) := by rw [← hf]
  have hstart : ∃ known, Sized data.node base ds (start f data base : State D) known
        ⟨ss, field (geoX items) + total (geoX items) * nx,
          field (geoY items) + total (geoY items) * ny, m⟩ ∧
      (start f data base : State D).upscaled = (decide (f.factorx = 1) && decide (f.factory = 1)) ∧
      ∀ n ∈ (start f data base : State D).nodes, n.isOutput = false := by
    by_cases h0 : 0 < field (geoX items)
    · obtain ⟨known, h⟩ := start_border (D := D) hb hfm hrx hry h0 (hborder.1 h0) hd
      refine ⟨known, ?_⟩
      rw [Nat.add_comm (field (geoX items)), Nat.add_comm (field (geoY items))]
      exact h
    · have h0' : ¬ 0 < field (geoY items) := fun h => h0 (hborder.2 h)
      refine ⟨[], ?_⟩
      rw [show field (geoX items) = 0 by omega, show field (geoY items) = 0 by omega, Nat.zero_add,
        Nat.zero_add]
      exact start_plain (D := D) (by rw [hrx, hry]; omega) hd
  obtain ⟨known, hs, hu, hno⟩ := hstart
  obtain ⟨known1, hs1⟩ := steps_sized hb zero one hnx hny items hok bx by' hs
  obtain ⟨g1, g2, g3⟩ := steps_fields zero one items (start f data base)
  have hsh : (if f.method = .patch then (⟨ss, nx, ny, mapsOf items m⟩ : Shape) else
      ⟨ss, nx * total (geoX items), ny * total (geoY items), mapsOf items m⟩) =
      ⟨ss, total (geoX items) * nx, total (geoY items) * ny, mapsOf items m⟩ := by
    rw [hfm, if_neg (by decide), Nat.mul_comm nx, Nat.mul_comm ny]
  obtain ⟨st, known', e1, e2, e3⟩ := output_final conv zero one (classes := classes) (loss := loss) hb hs1
    (g3 hno) hfx hfy (by omega) (by omega) (g1.trans hu) (by rw [hsh]; exact hl)
  rw [hsh] at e3
  refine ⟨f, st, known', hc, ?_, e2, e3⟩
  unfold addLayers
  rw [addLines_items conv zero one f data classes loss _ items hok]
  exact e1

/-- C56, patch mode: the size of the patches, as reported by `patchsizex()` and `patchsizey()`, is one
for which the net has exactly one output value per map. -/
theorem C56_patch_size (conv : Str → D) (zero one : D) (items : List Item) (loss : Bool)
    (classes ss m base : Nat) (data : Conn) (ds : List Shape) (f : Fields)
    (hok : ∀ i ∈ items, i.Ok) (hnl : ∀ i ∈ items, '\n' ∉ i.text) (hm : Item.patches ∈ items)
    (bx : field (geoX items) + total (geoX items) < 2147483648)
    (by' : field (geoY items) + total (geoY items) < 2147483648)
    (hf : construct (linesOf (descriptionText items)) true = .done f)
    (hb : data.node < base)
    (hd : ds[data.buffer]? = some ⟨ss, f.rfx.toNat, f.rfy.toNat, m⟩)
    (hl : LossFits loss ds ⟨ss, 1, 1, mapsOf items m⟩) :
    f.method = .patch ∧
    ∃ st known, addLayers conv zero one f (linesOf (descriptionText items)) data base classes loss =
        .done st ∧
      shapes data.node base ds st.nodes [] = .done known ∧
      OutputShape st.nodes known ⟨ss, 1, 1, mapsOf items m⟩ := by
  rw [descriptionLines hnl] at hf ⊢
  have hc := construct_items true items hok (by omega) (by omega)
  have hmeth : methodOf true items .fcn = .patch := by unfold methodOf; rw [if_pos ⟨rfl, hm⟩]
  rw [hmeth] at hc
  simp only [if_true] at hc
  rw [hc] at hf
  have e := Outcome.done.inj hf
  have hfm : f.method = .patch := by rw [← e]
  have hfx : f.factorx = (total (geoX items) : Nat) := by rw [← e]
  have hfy : f.factory = (total (geoY items) : Nat) := by rw [← e]
  have hrx : f.rfx = (field (geoX items) + total (geoX items) : Nat) := by rw [← e]
  have hry : f.rfy = (field (geoY items) + total (geoY items) : Nat) := by rw [← e]
  refine ⟨hfm, ?_⟩
  rw [hrx, hry, Int.toNat_natCast, Int.toNat_natCast] at hd
  obtain ⟨hs, hu, hno⟩ := start_plain (D := D) (f := f) (base := base)
    (by rintro ⟨h, _⟩; rw [hfm] at h; cases h) hd
  have hs' : Sized data.node base ds (start f data base : State D) []
      ⟨ss, field (geoX items) + total (geoX items) * 1, field (geoY items) + total (geoY items) * 1, m⟩ := by
    simpa using hs
  obtain ⟨known1, hs1⟩ := steps_sized hb zero one Nat.one_pos Nat.one_pos items hok (by omega) (by omega) hs'
  obtain ⟨g1, g2, g3⟩ := steps_fields zero one items (start f data base)
  obtain ⟨st, known', e1, e2, e3⟩ := output_final conv zero one (classes := classes) (loss := loss) hb hs1
    (g3 hno) hfx hfy (by omega) (by omega) (g1.trans hu) (by rw [hfm, if_pos rfl]; exact hl)
  rw [hfm, if_pos rfl] at e3
  refine ⟨st, known', ?_, e2, e3⟩
  unfold addLayers
  rw [addLines_items conv zero one _ data classes loss _ items hok]
  exact e1

end Sizes


/-! ### Stacks -/

section Stacks
variable {D : Type _}

/-- Stack lines carry nothing that the text replacements look for. -/
def PlainStackLine (line : Str) : Prop :=
  (∃ s ∈ ["pusha".toList, "pushb".toList, "popa".toList, "popb".toList], s <+: line) →
    '(' ∉ line ∧ 'f' ∉ line

theorem addLine_plainStack (conv : Str → D) (zero one : D) (f : Fields) (data : Conn) (classes : Nat)
    (loss : Bool) {line s : Str} (st : State D) (hl : PlainStackLine line)
    (hs : s ∈ ["pusha".toList, "pushb".toList, "popa".toList, "popb".toList])
    (h : s.isPrefixOf line = true) :
    addLine conv zero one f data classes loss line st = stackLine line st := by
  have hp := List.isPrefixOf_iff_prefix.1 h
  obtain ⟨h1, h2⟩ := hl ⟨s, hs, hp⟩
  refine addLine_stack conv zero one f data classes loss st ?_ h1 h2
  obtain ⟨t, rfl⟩ := hp
  simp only [List.mem_cons, List.not_mem_nil, or_false] at hs
  rcases hs with rfl | rfl | rfl | rfl <;> exact ⟨_, rfl⟩

theorem push_done {c : Conn} {s s' : List Conn} (h : push c s = .done s') : s' = c :: s ∧ s.length < 64 := by
  unfold push at h
  split at h
  · exact ⟨(Outcome.done.inj h).symm, by assumption⟩
  · cases h

theorem pop_done {s : List Conn} {r : Conn × List Conn} (h : pop s = .done r) : s = r.1 :: r.2 := by
  cases s with
  | nil => cases h
  | cons c s => obtain rfl := Outcome.done.inj h; rfl

/-- The words of a stack. -/
def pushWord (w : Bool) : Str := if w then "pusha".toList else "pushb".toList
def popWord (w : Bool) : Str := if w then "popa".toList else "popb".toList

/-- The stack, `true` for `a`. -/
def stackOf (w : Bool) (st : State D) : List Conn := if w then st.stackA else st.stackB

theorem pushWord_mem (w : Bool) :
    pushWord w ∈ ["pusha".toList, "pushb".toList, "popa".toList, "popb".toList] := by cases w <;> simp [pushWord]
theorem popWord_mem (w : Bool) :
    popWord w ∈ ["pusha".toList, "pushb".toList, "popa".toList, "popb".toList] := by cases w <;> simp [popWord]

theorem words_apart {w : Bool} {l : Str} (h : (pushWord w).isPrefixOf l = true) :
    (popWord w).isPrefixOf l = false := by
  obtain ⟨t, rfl⟩ := List.isPrefixOf_iff_prefix.1 h
  cases w <;> rfl

theorem other_words {w : Bool} {l : Str} {s : Str} (hs : s = pushWord (!w) ∨ s = popWord (!w))
    (h : s.isPrefixOf l = true) : (pushWord w).isPrefixOf l = false ∧ (popWord w).isPrefixOf l = false := by
  obtain ⟨t, rfl⟩ := List.isPrefixOf_iff_prefix.1 h
  rcases hs with rfl | rfl <;> cases w <;> exact ⟨rfl, rfl⟩

theorem stack_push {line : Str} {st st' : State D} {w : Bool} (h : (pushWord w).isPrefixOf line = true)
    (hd : stackLine line st = .done st') :
    stackOf w st' = st.last :: stackOf w st ∧ stackOf (!w) st' = stackOf (!w) st ∧ st'.last = st.last ∧
      (stackOf w st).length < 64 := by
  rw [stackLine_push w h] at hd
  obtain ⟨s, h1, h2⟩ := bind_eq_done hd
  obtain ⟨rfl, h3⟩ := push_done h1
  obtain rfl := Outcome.done.inj h2
  cases w <;> exact ⟨rfl, rfl, rfl, h3⟩

theorem stack_pop {line : Str} {st st' : State D} {w : Bool} (h : (popWord w).isPrefixOf line = true)
    (hd : stackLine line st = .done st') :
    stackOf w st = st'.last :: stackOf w st' ∧ stackOf (!w) st' = stackOf (!w) st := by
  rw [stackLine_pop w h] at hd
  obtain ⟨r, h1, h2⟩ := bind_eq_done hd
  have h3 := pop_done h1
  obtain rfl := Outcome.done.inj h2
  cases w <;> exact ⟨h3, rfl⟩

/-- One line and one stack. -/
theorem stack_step (conv : Str → D) (zero one : D) (f : Fields) (data : Conn) (classes : Nat) (loss : Bool)
    {line : Str} {st st' : State D} (hl : PlainStackLine line) (w : Bool)
    (h : addLine conv zero one f data classes loss line st = .done st') :
    ((pushWord w).isPrefixOf line = true →
      stackOf w st' = st.last :: stackOf w st ∧ (stackOf w st).length < 64) ∧
    ((popWord w).isPrefixOf line = true → stackOf w st = st'.last :: stackOf w st') ∧
    ((pushWord w).isPrefixOf line = false → (popWord w).isPrefixOf line = false →
      stackOf w st' = stackOf w st) := by
  refine ⟨fun hp => ?_, fun hp => ?_, fun hp hq => ?_⟩
  · rw [addLine_plainStack conv zero one f data classes loss st hl (pushWord_mem w) hp] at h
    exact ⟨(stack_push hp h).1, (stack_push hp h).2.2.2⟩
  · rw [addLine_plainStack conv zero one f data classes loss st hl (popWord_mem w) hp] at h
    exact (stack_pop hp h).1
  · by_cases h1 : (pushWord (!w)).isPrefixOf line = true
    · rw [addLine_plainStack conv zero one f data classes loss st hl (pushWord_mem _) h1] at h
      have := (stack_push h1 h).2.1
      rwa [Bool.not_not] at this
    by_cases h2 : (popWord (!w)).isPrefixOf line = true
    · rw [addLine_plainStack conv zero one f data classes loss st hl (popWord_mem _) h2] at h
      have := (stack_pop h2 h).2
      rwa [Bool.not_not] at this
    have hno : NoStack line := by
      intro s hs
      have h1 := Bool.eq_false_iff.2 h1
      have h2 := Bool.eq_false_iff.2 h2
      simp only [List.mem_cons, List.not_mem_nil, or_false] at hs
      cases w <;> rcases hs with rfl | rfl | rfl | rfl <;> assumption
    have := addLine_same hno h
    cases w
    · exact this.2
    · exact this.1

/-- C56, the stacks: for every description that is read to its end, with `σ k` the state before line
`k`: before every line, the entries of either stack are the connections that were current at the open
push lines (the ones not yet taken back by a pop), the most recent on top; a pop makes the connection of
the most recent open push current again; there are never more than 64 entries and never fewer than
none. -/
theorem C56_stacks (conv : Str → D) (zero one : D) (f : Fields) (lines : List Str) (data : Conn)
    (base classes : Nat) (loss w : Bool) (st : State D) (hl : ∀ l ∈ lines, PlainStackLine l)
    (h : addLayers conv zero one f lines data base classes loss = .done st) :
    ∃ σ : Nat → State D,
      (∀ k, addLayers conv zero one f (lines.take k) data base classes loss = .done (σ k)) ∧
      ∀ k, k ≤ lines.length → ∃ L : List Nat, L.Pairwise (· > ·) ∧
        (∀ i, i ∈ L ↔ OpenPush (pushWord w) (popWord w) lines k i) ∧
        stackOf w (σ k) = L.map (fun i => (σ i).last) ∧
        height (pushWord w) (popWord w) lines k = L.length ∧ L.length ≤ 64 ∧
        ∀ l, lines[k]? = some l → (popWord w).isPrefixOf l = true →
          ∃ i, L.head? = some i ∧ (σ (k + 1)).last = (σ i).last := by
  unfold addLayers at h
  choose σ hσ using fun k => addLines_take_done h k
  refine ⟨σ, hσ, ?_⟩
  have hstep : ∀ (k : Nat) (l : Str), lines[k]? = some l →
      addLine conv zero one f data classes loss l (σ k) = .done (σ (k + 1)) := by
    intro k l hk
    have := hσ (k + 1)
    rw [addLines_take_succ hk, hσ k, Outcome.bind_done] at this
    exact this
  have hall : ∀ (k : Nat) (l : Str), lines[k]? = some l → _ := fun k l hk =>
    stack_step conv zero one f data classes loss (hl l (List.mem_of_getElem? hk)) w (hstep k l hk)
  have h0 : stackOf w (σ 0) = [] := by
    have h0 := hσ 0
    rw [List.take_zero, addLines] at h0
    rw [← Outcome.done.inj h0]
    unfold start
    simp only []
    cases w <;> (split <;> rfl)
  have hinv := open_stack (pushWord w) (popWord w) lines (fun i => (σ i).last) (fun k => stackOf w (σ k))
    (fun l => words_apart) h0 (fun k l hk hp => ((hall k l hk).1 hp).1)
    (fun k l hk hp => ⟨_, (hall k l hk).2.1 hp⟩) (fun k l hk hp hq => (hall k l hk).2.2 hp hq)
  have hlen : ∀ k, k ≤ lines.length → (stackOf w (σ k)).length ≤ 64 := by
    intro k
    induction k with
    | zero => intro _; rw [h0]; exact Nat.zero_le _
    | succ k ih =>
      intro hk
      have ih := ih (by omega)
      obtain ⟨l, hlk⟩ : ∃ l, lines[k]? = some l :=
        ⟨lines[k], by simp [List.getElem?_eq_getElem (by omega : k < lines.length)]⟩
      obtain ⟨c1, c2, c3⟩ := hall k l hlk
      by_cases hp : (pushWord w).isPrefixOf l = true
      · rw [(c1 hp).1, List.length_cons]
        exact (c1 hp).2
      by_cases hq : (popWord w).isPrefixOf l = true
      · have := c2 hq
        rw [this, List.length_cons] at ih
        omega
      · rw [c3 (Bool.eq_false_iff.2 hp) (Bool.eq_false_iff.2 hq)]
        exact ih
  intro k hk
  obtain ⟨L, a1, a2, a3, a4, _⟩ := hinv k hk
  refine ⟨L, a1, a2, a3, a4, ?_, ?_⟩
  · have := hlen k hk
    rw [a3, List.length_map] at this
    exact this
  · intro l hlk hp
    have e := (hall k l hlk).2.1 hp
    rw [a3] at e
    cases L with
    | nil => simp at e
    | cons i L =>
      rw [List.map_cons, List.cons.injEq] at e
      exact ⟨i, rfl, e.1.symm⟩

/-- C56, the stacks are not checked: a stack line after any beginning that was read is itself read if
and only if the height stays within 0 and 64; otherwise the behaviour is undefined (the code accesses
its arrays outside their bounds). -/
theorem C56_stack_bounds (conv : Str → D) (zero one : D) (f : Fields) (lines : List Str) (data : Conn)
    (base classes : Nat) (loss w : Bool) (st : State D) (line : Str)
    (hl : ∀ l ∈ lines, PlainStackLine l) (hline : PlainStackLine line)
    (hs : (pushWord w).isPrefixOf line = true ∨ (popWord w).isPrefixOf line = true)
    (h : addLayers conv zero one f lines data base classes loss = .done st) :
    let n := height (pushWord w) (popWord w) (lines ++ [line]) (lines.length + 1)
    (0 ≤ n ∧ n ≤ 64 → ∃ st', addLayers conv zero one f (lines ++ [line]) data base classes loss = .done st') ∧
    (¬ (0 ≤ n ∧ n ≤ 64) → addLayers conv zero one f (lines ++ [line]) data base classes loss = .undefined) := by
  intro n
  obtain ⟨σ, hσ, hinv⟩ := C56_stacks conv zero one f lines data base classes loss w st hl h
  obtain ⟨L, a1, a2, a3, a4, a5, _⟩ := hinv lines.length (Nat.le_refl _)
  have e : σ lines.length = st := by
    have := hσ lines.length
    rw [List.take_length, h] at this
    exact (Outcome.done.inj this).symm
  rw [e] at a3
  have hn : n = L.length + change (pushWord w) (popWord w) line := by
    rw [← a4]
    show height _ _ _ _ = _
    unfold height
    rw [List.take_length, show lines.length + 1 = (lines ++ [line]).length by simp, List.take_length]
    simp
  have hadd : addLayers conv zero one f (lines ++ [line]) data base classes loss = stackLine line st := by
    unfold addLayers at h ⊢
    rw [addLines_append, h, Outcome.bind_done]
    have hal : addLine conv zero one f data classes loss line st = stackLine line st := by
      rcases hs with hs | hs
      · exact addLine_plainStack conv zero one f data classes loss st hline (pushWord_mem w) hs
      · exact addLine_plainStack conv zero one f data classes loss st hline (popWord_mem w) hs
    rw [addLines, hal]
    cases stackLine line st <;> rfl
  rw [hadd]
  have hlen : (stackOf w st).length = L.length := by rw [a3, List.length_map]
  rcases hs with hs | hs
  · have hc : change (pushWord w) (popWord w) line = 1 := by unfold change; rw [hs]; rfl
    rw [stackLine_push w hs]
    change (0 ≤ n ∧ n ≤ 64 → ∃ st', (push st.last (stackOf w st)).bind _ = .done st') ∧ _
    unfold push
    rw [hlen]
    constructor
    · intro hb
      rw [if_pos (by omega)]
      exact ⟨_, rfl⟩
    · intro hb
      rw [show (if w = true then st.stackA else st.stackB) = stackOf w st from rfl, hlen, if_neg (by omega)]
      rfl
  · have hc : change (pushWord w) (popWord w) line = -1 := by
      have : (pushWord w).isPrefixOf line = false := by
        rw [Bool.eq_false_iff]
        intro h'
        have := words_apart h'
        rw [hs] at this
        cases this
      unfold change; rw [this, hs]; rfl
    rw [stackLine_pop w hs]
    change (0 ≤ n ∧ n ≤ 64 → ∃ st', (pop (stackOf w st)).bind _ = .done st') ∧
      (_ → (pop (stackOf w st)).bind _ = .undefined)
    cases hst : stackOf w st with
    | nil =>
      rw [hst] at hlen
      refine ⟨fun hb => absurd hb ?_, fun _ => rfl⟩
      rw [List.length_nil] at hlen
      omega
    | cons c s =>
      rw [hst, List.length_cons] at hlen
      exact ⟨fun _ => ⟨_, rfl⟩, fun hb => absurd (by omega) hb⟩

/-- The lines that join. -/
def joinText (sum w : Bool) : Str :=
  (if sum then "?sum".toList else "?concat".toList) ++ (if w then " stack=a".toList else " stack=b".toList)

/-- C56, joins: a `sum` or `concat` line adds one layer whose inputs are the entries of the stack it
names, the most recent first; they stay on the stack, and the output of the layer becomes current. -/
theorem C56_join (conv : Str → D) (zero one : D) (f : Fields) (data : Conn) (classes : Nat) (loss sum w : Bool)
    (st : State D) :
    addLine conv zero one f data classes loss (joinText sum w) st =
      .done { st with
        nodes := st.nodes ++ [⟨if sum then .sum else .concat, stackOf w st, false⟩]
        last := ⟨st.base + st.nodes.length, 0, true⟩ } := by
  have hpre : preprocess f.method classes (joinText sum w) = .done (joinText sum w) :=
    preprocess_id (by cases sum <;> cases w <;> decide +kernel) (by cases sum <;> cases w <;> decide +kernel) _ _
  have hout : outputLine conv one classes (joinText sum w) = .done (joinText sum w, false, one) := by
    unfold outputLine
    rw [if_neg (by cases sum <;> cases w <;> decide +kernel)]
  have hst : stackLine (joinText sum w) st = .done st :=
    stackLine_none (by intro s hs; revert s; cases sum <;> cases w <;> decide +kernel) st
  have hname : namedStack (joinText sum w).tail st = .done (stackOf w st) := by
    unfold namedStack
    rw [show param (joinText sum w).tail "stack".toList = some (some (if w then ['a'] else ['b'])) by
      cases sum <;> cases w <;> decide +kernel]
    cases w <;> rfl
  have hjoin : joinLine f data false (joinText sum w).tail st =
      .done (st.add ⟨if sum then .sum else .concat, stackOf w st, false⟩, false) := by
    unfold joinLine
    rw [if_neg (by cases sum <;> cases w <;> decide +kernel)]
    cases sum
    · rw [if_pos (by cases w <;> decide +kernel), hname]; rfl
    · rw [if_neg (by cases w <;> decide +kernel), if_pos (by cases w <;> decide +kernel), hname]; rfl
  have hlayer : layerLine conv zero one f data false (joinText sum w).tail st =
      .done (st.add ⟨if sum then .sum else .concat, stackOf w st, false⟩, false) := by
    unfold layerLine
    rw [if_neg (by cases sum <;> cases w <;> decide +kernel), if_neg (by cases sum <;> cases w <;> decide +kernel)]
    have hpool : poolingLine (joinText sum w).tail st = .done none := by
      unfold poolingLine
      rw [if_neg (by cases sum <;> cases w <;> decide +kernel), if_neg (by cases sum <;> cases w <;> decide +kernel),
        if_neg (by cases sum <;> cases w <;> decide +kernel)]
    have hact : activationLine conv zero one f.method false (joinText sum w).tail st = .done none := by
      unfold activationLine
      simp only []
      rw [if_neg (by cases sum <;> cases w <;> decide +kernel), if_neg (by cases sum <;> cases w <;> decide +kernel),
        if_neg (by cases sum <;> cases w <;> decide +kernel), if_neg (by cases sum <;> cases w <;> decide +kernel)]
    rw [hpool, Outcome.bind_done]
    simp only []
    rw [hact, Outcome.bind_done]
    simp only []
    exact hjoin
  have htail : joinText sum w = '?' :: (joinText sum w).tail := by cases sum <;> cases w <;> rfl
  unfold addLine
  rw [if_neg (by cases sum <;> cases w <;> decide +kernel), hpre, Outcome.bind_done, hout, Outcome.bind_done,
    hst, Outcome.bind_done]
  simp only []
  rw [htail]
  simp only []
  rw [hlayer, Outcome.bind_done]
  unfold addLoss scaleOutput
  rw [if_neg (by simp), if_neg (by simp)]
  rfl

/-- A pop without a push, and 65 pushes, leave the arrays. -/
theorem C56_stack_overrun_witness :
    addLayers (D := Nat) (fun _ => 0) 0 1 {} ["popa".toList] ⟨0, 0, false⟩ 1 3 true = .undefined ∧
    addLayers (D := Nat) (fun _ => 0) 0 1 {} (List.replicate 65 "pushb".toList) ⟨0, 0, false⟩ 1 3 true
      = .undefined := by
  refine ⟨by decide +kernel, by decide +kernel⟩

/-- Non-vacuity: a description with two branches that are added. -/
example : ∃ st, addLayers (D := Nat) (fun _ => 0) 0 1 {}
    (["pusha", "?relu", "pusha", "?sum stack=a", "popa", "?tanh", "popa"].map String.toList)
      ⟨0, 0, false⟩ 1 3 true = .done st ∧
    (st.nodes.map (·.layer)) = [.relu, .sum, .tanh] ∧
    (st.nodes.map (·.inputs)) = [[⟨0, 0, false⟩], [⟨1, 0, true⟩, ⟨0, 0, false⟩], [⟨1, 0, true⟩]] ∧
    st.last = ⟨0, 0, false⟩ ∧ st.stackA = [] := by
  refine ⟨_, rfl, ?_, ?_, ?_, ?_⟩ <;> decide +kernel

end Stacks

/-! ### The receptive field -/

/-- C56, the patch size is the receptive field: in patch mode, for chains of unpadded convolutions that
move by one and poolings that cut tiles, the inputs that take part in output `x` are exactly the
`patchsizex()` values from `x` times the reduction on; the same for the other axis. -/
theorem C56_receptive_field (items : List Item) (f : Fields)
    (hok : ∀ i ∈ items, i.Ok) (hnl : ∀ i ∈ items, '\n' ∉ i.text) (hm : Item.patches ∈ items)
    (hdx : ∀ g ∈ geoX items, g.Dense) (hdy : ∀ g ∈ geoY items, g.Dense)
    (bx : field (geoX items) + total (geoX items) < 2147483648)
    (by' : field (geoY items) + total (geoY items) < 2147483648)
    (hf : construct (linesOf (descriptionText items)) true = .done f) (x i : Nat) :
    (Feeds ((geoX items).map Geo.toWindow) x i ↔
      f.factorx * x ≤ i ∧ (i : Int) < f.factorx * x + f.rfx) ∧
    (Feeds ((geoY items).map Geo.toWindow) x i ↔
      f.factory * x ≤ i ∧ (i : Int) < f.factory * x + f.rfy) := by
  rw [descriptionLines hnl] at hf
  have hc := construct_items true items hok (by omega) (by omega)
  have hmeth : methodOf true items .fcn = .patch := by unfold methodOf; rw [if_pos ⟨rfl, hm⟩]
  rw [hmeth] at hc
  simp only [if_true] at hc
  rw [hc] at hf
  have e := Outcome.done.inj hf
  have hw : ∀ gs : List Geo, (∀ g ∈ gs, g.Ok) → (∀ g ∈ gs, g.Dense) →
      ∀ l ∈ gs.map Geo.toWindow, 0 < l.s ∧ l.s ≤ l.k := by
    intro gs h1 h2 l hl
    obtain ⟨g, hg, rfl⟩ := List.mem_map.1 hl
    have := h1 g hg
    have h3 := h2 g hg
    cases g with
    | window k s p =>
      obtain ⟨rfl, rfl⟩ := h3
      exact ⟨Nat.one_pos, this.1⟩
    | tile k => exact ⟨this.1, Nat.le_refl _⟩
  have key : ∀ gs : List Geo, (∀ g ∈ gs, g.Ok) → (∀ g ∈ gs, g.Dense) →
      (Feeds (gs.map Geo.toWindow) x i ↔ ((total gs : Nat) : Int) * x ≤ i ∧
        (i : Int) < ((total gs : Nat) : Int) * x + ((field gs + total gs : Nat) : Int)) := by
    intro gs h1 h2
    rw [feeds_iff (hw gs h1 h2), steps_total, reach_dense h1 h2, ← Int.natCast_mul, ← Int.natCast_add]
    omega
  rw [← e]
  exact ⟨key _ (geoX_ok hok) hdx, key _ (geoY_ok hok) hdy⟩

/-- C56, with larger steps the patch is still large enough: every input that takes part in output `x`
lies among the `patchsizex()` values from `x` times the reduction on.  It may be too large, see
`C56_strided_patch_too_large`. -/
theorem C56_receptive_field_strided_partial (items : List Item) (f : Fields)
    (hok : ∀ i ∈ items, i.Ok) (hnl : ∀ i ∈ items, '\n' ∉ i.text) (hm : Item.patches ∈ items)
    (hdx : ∀ g ∈ geoX items, g.Plain) (hdy : ∀ g ∈ geoY items, g.Plain)
    (bx : field (geoX items) + total (geoX items) < 2147483648)
    (by' : field (geoY items) + total (geoY items) < 2147483648)
    (hf : construct (linesOf (descriptionText items)) true = .done f) (x i : Nat) :
    (Feeds ((geoX items).map Geo.toWindow) x i →
      f.factorx * x ≤ i ∧ (i : Int) < f.factorx * x + f.rfx) ∧
    (Feeds ((geoY items).map Geo.toWindow) x i →
      f.factory * x ≤ i ∧ (i : Int) < f.factory * x + f.rfy) := by
  rw [descriptionLines hnl] at hf
  have hc := construct_items true items hok (by omega) (by omega)
  have hmeth : methodOf true items .fcn = .patch := by unfold methodOf; rw [if_pos ⟨rfl, hm⟩]
  rw [hmeth] at hc
  simp only [if_true] at hc
  rw [hc] at hf
  have e := Outcome.done.inj hf
  have hw : ∀ gs : List Geo, (∀ g ∈ gs, g.Ok) → ∀ l ∈ gs.map Geo.toWindow, 0 < l.s ∧ 0 < l.k := by
    intro gs h1 l hl
    obtain ⟨g, hg, rfl⟩ := List.mem_map.1 hl
    have := h1 g hg
    cases g with
    | window k s p => exact ⟨this.2.1, this.1⟩
    | tile k => exact ⟨this.1, this.1⟩
  have key : ∀ gs : List Geo, (∀ g ∈ gs, g.Ok) → (∀ g ∈ gs, g.Plain) →
      (Feeds (gs.map Geo.toWindow) x i → ((total gs : Nat) : Int) * x ≤ i ∧
        (i : Int) < ((total gs : Nat) : Int) * x + ((field gs + total gs : Nat) : Int)) := by
    intro gs h1 h2 hfd
    have := feeds_bound (hw gs h1) hfd
    have hr := reach_plain h1 h2
    rw [steps_total] at this
    rw [← Int.natCast_mul, ← Int.natCast_add]
    omega
  rw [← e]
  exact ⟨key _ (geoX_ok hok) hdx, key _ (geoY_ok hok) hdy⟩

/-- C56, patches and whole images: a chain of layers, each of which computes an output value from the
window of its input that starts at the position times its step, computes for the pixel `(x, y)` of the
output of a whole image what it computes for a patch that agrees with the image on `patchsizex()` by
`patchsizey()` values from the position times the reduction on. -/
theorem C56_patch_agrees_with_image {V : Type _} (items : List Item) (f : Fields)
    (hok : ∀ i ∈ items, i.Ok) (hnl : ∀ i ∈ items, '\n' ∉ i.text) (hm : Item.patches ∈ items)
    (hdx : ∀ g ∈ geoX items, g.Plain) (hdy : ∀ g ∈ geoY items, g.Plain)
    (bx : field (geoX items) + total (geoX items) < 2147483648)
    (by' : field (geoY items) + total (geoY items) < 2147483648)
    (hf : construct (linesOf (descriptionText items)) true = .done f)
    (os : List (Op V)) (hos : ∀ o ∈ os, o.Local)
    (hox : os.map (·.x) = (geoX items).map Geo.toWindow)
    (hoy : os.map (·.y) = (geoY items).map Geo.toWindow)
    (image patch : Nat → Nat → V) (x y : Nat)
    (hp : ∀ i j : Nat, (i : Int) < f.rfx → (j : Int) < f.rfy →
      patch i j = image ((f.factorx * x).toNat + i) ((f.factory * y).toNat + j)) :
    Op.runAll os image x y = Op.runAll os patch 0 0 := by
  rw [descriptionLines hnl] at hf
  have hc := construct_items true items hok (by omega) (by omega)
  have hmeth : methodOf true items .fcn = .patch := by unfold methodOf; rw [if_pos ⟨rfl, hm⟩]
  rw [hmeth] at hc
  simp only [if_true] at hc
  rw [hc] at hf
  rw [← Outcome.done.inj hf] at hp
  simp only [] at hp
  rw [← Int.natCast_mul, ← Int.natCast_mul, Int.toNat_natCast, Int.toNat_natCast] at hp
  have hpos : ∀ gs : List Geo, (∀ g ∈ gs, g.Ok) → ∀ l ∈ gs.map Geo.toWindow, 0 < l.k := by
    intro gs h1 l hl
    obtain ⟨g, hg, rfl⟩ := List.mem_map.1 hl
    have := h1 g hg
    cases g with
    | window k s p => exact this.1
    | tile k => exact this.1
  have h := Op.runAll_shift os image x y 0 0
  rw [Nat.add_zero, Nat.add_zero, hox, hoy, steps_total, steps_total] at h
  rw [h]
  refine Op.runAll_local (fun o ho => ⟨hos o ho, ?_, ?_⟩) (fun i j hi hj => ?_)
  · exact hpos _ (geoX_ok hok) _ (by rw [← hox]; exact List.mem_map_of_mem ho)
  · exact hpos _ (geoY_ok hok) _ (by rw [← hoy]; exact List.mem_map_of_mem ho)
  · rw [hox] at hi
    rw [hoy] at hj
    have h1 := reach_plain (geoX_ok hok) hdx
    have h2 := reach_plain (geoY_ok hok) hdy
    exact (hp i j (by omega) (by omega)).symm


/-! ### Where the full property fails -/

/-- The lines of a text. -/
def textLines (ls : List String) : List Str := linesOf (joinLines (ls.map String.toList))

/-- Sizes of the outputs of a description, for one image. -/
def sizesOf (ls : List String) (image : Shape) : Outcome (List (List Shape)) :=
  (construct (textLines ls) false).bind fun f =>
  (addLayers (D := Nat) (fun _ => 0) 0 1 f (textLines ls) ⟨0, 0, false⟩ 1 3 false).bind fun st =>
  shapes 0 1 [image] st.nodes []

/-- With steps larger than one the patch is larger than the receptive field: a convolution of size 3
with step 2 uses 3 values, but the patches have 4. -/
theorem C56_strided_patch_too_large :
    (construct (textLines ["method=patch", "?convolutional kernels=1 size=3x3 stride=2x2", "?output"]) true
      = .done ⟨.patch, 4, 4, 2, 2, false⟩) ∧ ¬ Feeds [⟨3, 2⟩] 0 3 := by
  refine ⟨by decide +kernel, ?_⟩
  rintro ⟨j, hj, h1, h2⟩
  obtain rfl : j = 0 := hj
  revert h2
  decide

/-- The full property fails for borders in one direction only: the border is not added, and the output
is smaller than the image. -/
theorem C56_border_in_one_direction :
    sizesOf ["?convolutional kernels=2 size=1x3", "?output"] ⟨1, 8, 8, 1⟩ =
      .done [[⟨1, 8, 6, 2⟩], [⟨1, 8, 6, 2⟩]] := by decide +kernel

/-- The full property fails for images whose size is no multiple of the reduction: reading goes well,
but the net is refused. -/
theorem C56_other_image_refused :
    sizesOf ["?maxpooling size=2x2", "?output"] ⟨1, 7, 8, 1⟩ = .fatal := by decide +kernel

/-- More padding than the kernel needs: the output is larger than the image. -/
theorem C56_padding_enlarges :
    sizesOf ["?convolutional kernels=2 size=3x3 pad=2x2", "?output"] ⟨1, 8, 8, 1⟩ =
      .done [[⟨1, 10, 10, 2⟩], [⟨1, 10, 10, 2⟩]] := by decide +kernel

/-- A convolution without size is read by the second pass (as 1x1), but the first pass uses variables
without a value. -/
theorem C56_size_needed :
    construct (textLines ["?convolutional kernels=2", "?output"]) false = .undefined := by decide +kernel

/-- The passes disagree on the words they replace: the first sees no layer in a fully connected line, the
second reads it as a convolution, with its step. -/
theorem C56_fully_connected_step :
    sizesOf ["?fullyconnected neurons=2 stride=2x2", "?output"] ⟨1, 8, 8, 1⟩ =
      .done [[⟨1, 4, 4, 2⟩], [⟨1, 4, 4, 2⟩]] := by decide +kernel

/-- Unknown layers are skipped without a message. -/
theorem C56_unknown_layer_skipped (conv : Str → Nat) :
    addLayers conv 0 1 {} (textLines ["?softmax"]) ⟨0, 0, false⟩ 1 3 true =
      addLayers conv 0 1 {} (textLines [""]) ⟨0, 0, false⟩ 1 3 true := rfl

/-! ### Non-vacuity -/

/-- A description like that of the KITTI example (example/kitti.net). -/
def exampleItems : List Item :=
  [.comment " layers".toList, .conv 16 (7, 7) none none, .maxPool (2, 2), .act .relu,
    .conv 12 (5, 5) none none, .act .relu, .conv 64 (5, 5) (some (1, 1)) (some (0, 0)), .act .tanh,
    .other "lr=0.0001".toList, .full 192, .act .relu, .full 1]

example : descriptionText [.conv 16 (7, 7) none none, .maxPool (2, 2), .act .relu, .full 1] =
    "?convolutional kernels=16 size=7x7\n?maxpooling size=2x2\n?relu\n?fullyconnected neurons=1\n?output".toList := by
  decide +kernel

example : field (geoX exampleItems) = 22 ∧ total (geoX exampleItems) = 2 ∧
    field (geoY exampleItems) = 22 ∧ total (geoY exampleItems) = 2 ∧ mapsOf exampleItems 3 = 1 := by
  decide +kernel

theorem foreign_of {t : Str} (h : ['?'].isPrefixOf t = false)
    (h1 : ∀ s ∈ ["pusha".toList, "pushb".toList, "popa".toList, "popb".toList, "manual".toList],
      s.isPrefixOf t = false)
    (h2 : '=' ∉ t.takeWhile (· ≠ '=') ∧ ('h' ∉ t ∨ '=' ∉ t)) (h3 : 'f' ∉ t) (h4 : '(' ∉ t) : Foreign t := by
  refine ⟨?_, ?_, ?_⟩
  · rw [← List.isPrefixOf_iff_prefix, h]; exact Bool.false_ne_true
  · intro s hs
    rw [← List.isPrefixOf_iff_prefix, h1 s hs]; exact Bool.false_ne_true
  · intro s hs hin
    simp only [List.mem_cons, List.not_mem_nil, or_false] at hs
    rcases hs with rfl | rfl | rfl
    · rcases h2.2 with h' | h'
      · exact h' (hin.subset (by decide))
      · exact h' (hin.subset (by decide))
    · exact h3 (hin.subset (by decide))
    · exact h4 (hin.subset (by decide))

theorem exampleItems_ok : ∀ i ∈ exampleItems, i.Ok := by
  intro i hi
  simp only [exampleItems, List.mem_cons, List.not_mem_nil, or_false] at hi
  rcases hi with rfl | rfl | rfl | rfl | rfl | rfl | rfl | rfl | rfl | rfl | rfl | rfl <;>
    first
      | (simp [Item.Ok, Item.geo, Geo.Ok]; done)
      | (refine ⟨by simp, ?_, by simp, by simp [Item.geo, Geo.Ok]⟩
         intro n k s p e
         obtain ⟨rfl, -⟩ := Item.conv.inj e
         decide)
      | (refine ⟨?_, by simp, by simp, by simp [Item.geo]⟩
         intro t e
         obtain rfl := Item.other.inj e
         refine foreign_of ?_ ?_ ?_ ?_ ?_ <;> decide)

/-- Its outputs have the size of the image: an image of 46 by 28 pixels. -/
example (loss : Bool) : ∃ f st known, construct (linesOf (descriptionText exampleItems)) true = .done f ∧
    addLayers (D := Nat) (fun _ => 0) 0 1 f (linesOf (descriptionText exampleItems)) ⟨0, 0, false⟩ 1 3 loss
      = .done st ∧
    shapes 0 1 [⟨1, 46, 28, 3⟩, ⟨1, 46, 28, 1⟩, ⟨1, 46, 28, 2⟩, ⟨1, 46, 28, 1⟩] st.nodes [] = .done known ∧
    OutputShape st.nodes known ⟨1, 46, 28, 1⟩ :=
  C56_fully_convolutional_size_partial (D := Nat) (fun _ => 0) 0 1 exampleItems true loss 3 23 14 1 3 1
    ⟨0, 0, false⟩ [⟨1, 46, 28, 3⟩, ⟨1, 46, 28, 1⟩, ⟨1, 46, 28, 2⟩, ⟨1, 46, 28, 1⟩] exampleItems_ok
    (by decide +kernel) (by decide +kernel) (by decide +kernel) (by decide) (by decide)
    (by decide +kernel) (by decide +kernel) (by decide) rfl
    (fun _ => ⟨⟨1, 46, 28, 1⟩, ⟨1, 46, 28, 1⟩, rfl, rfl, by decide +kernel⟩)

/-- Patch mode: patches of 24 by 24 pixels give one output value. -/
example : construct (linesOf (descriptionText (.patches :: exampleItems))) true =
    .done ⟨.patch, 24, 24, 2, 2, false⟩ := by decide +kernel

/-- Output 3 sees the pixels 6 to 29. -/
example (i : Nat) : Feeds ((geoX (.patches :: exampleItems)).map Geo.toWindow) 3 i ↔ 6 ≤ i ∧ i < 30 := by
  have hok : ∀ i ∈ Item.patches :: exampleItems, i.Ok := by
    intro i hi
    rcases List.mem_cons.1 hi with rfl | hi
    · simp [Item.Ok, Item.geo]
    · exact exampleItems_ok i hi
  have h := (C56_receptive_field (.patches :: exampleItems) ⟨.patch, 24, 24, 2, 2, false⟩ hok
    (by decide +kernel) (by simp) (by simp [geoX, exampleItems, Item.geo, Geo.Dense])
    (by simp [geoY, exampleItems, Item.geo, Geo.Dense]) (by decide +kernel) (by decide +kernel)
    (by decide +kernel) 3 i).1
  simp only [] at h
  rw [h]
  omega

/-- A convolution with constant kernel is such an operator. -/
example : (⟨⟨3, 1⟩, ⟨2, 1⟩, fun u => ((List.range 3).map fun i => ((List.range 2).map fun j => u i j).sum).sum⟩ :
    Op Nat).Local := by
  intro u v h
  simp only []
  congr 1
  refine List.map_congr_left fun i hi => ?_
  congr 1
  exact List.map_congr_left fun j hj => h i j (List.mem_range.1 hi) (List.mem_range.1 hj)

theorem bind_done_inv {α β : Type _} {o : Outcome α} {f : α → Outcome β} {b : β} (h : o.bind f = .done b) :
    ∃ a, o = .done a ∧ f a = .done b := by
  cases o with
  | done a => exact ⟨a, rfl, h⟩
  | fatal => cases h
  | undefined => cases h

/-- The values that fit an `int`. -/
def FitsInt (i : Int) : Prop := -2147483648 ≤ i ∧ i ≤ 2147483647

theorem wrap_fits (i : Int) : FitsInt (wrap i) := by unfold FitsInt wrap; omega

theorem int_fits {i j : Int} (h : int i = .done j) : FitsInt j := by
  unfold int at h
  split at h
  · cases h; assumption
  · cases h

theorem grow_fits {k s p : Nat} {rf f : Int} {r : Int × Int} (h : grow k s p rf f = .done r) : FitsInt r.1 ∧ FitsInt r.2 := by
  unfold grow at h
  obtain ⟨a, -, h⟩ := bind_done_inv h
  obtain ⟨b, -, h⟩ := bind_done_inv h
  obtain ⟨c, -, h⟩ := bind_done_inv h
  obtain ⟨d, -, h⟩ := bind_done_inv h
  obtain ⟨e, he, h⟩ := bind_done_inv h
  cases h
  exact ⟨int_fits he, wrap_fits _⟩

/-- The four numbers fit. -/
def FieldsFit (f : Fields) : Prop := FitsInt f.rfx ∧ FitsInt f.rfy ∧ FitsInt f.factorx ∧ FitsInt f.factory

theorem measureLine_fits {training : Bool} {l : Str} {f g : Fields} (h : measureLine training l f = .done g) (hf : FieldsFit f) :
    FieldsFit g := by
  unfold measureLine at h
  split at h
  · cases h; exact hf
  obtain ⟨f1, h1, h⟩ := bind_done_inv h
  obtain ⟨f2, h2, h⟩ := bind_done_inv h
  have k1 : FieldsFit f1 := by
    unfold readMethod at h1
    obtain ⟨m, -, h1⟩ := bind_done_inv h1
    split at h1 <;> cases h1 <;> exact hf
  have k2 : FieldsFit f2 := by
    unfold manual at h2
    split at h2
    · obtain ⟨a, -, h2⟩ := bind_done_inv h2
      obtain ⟨b, -, h2⟩ := bind_done_inv h2
      obtain ⟨c, -, h2⟩ := bind_done_inv h2
      obtain ⟨d, -, h2⟩ := bind_done_inv h2
      split at h2 <;> cases h2
      · exact ⟨wrap_fits _, wrap_fits _, wrap_fits _, wrap_fits _⟩
      · exact k1
    · cases h2; exact k1
  unfold growField at h
  split at h
  · split at h
    · cases h; exact k2
    · obtain ⟨e, -, h⟩ := bind_done_inv h
      cases e with
      | none => cases h; exact k2
      | some e =>
        unfold applyEffect Effect.apply at h
        obtain ⟨x, hx, h⟩ := bind_done_inv h
        obtain ⟨y, hy, h⟩ := bind_done_inv h
        cases h
        exact ⟨(grow_fits hx).1, (grow_fits hy).1, (grow_fits hx).2, (grow_fits hy).2⟩
  · cases h; exact k2

/-- C56: whatever the text says, the receptive field and the factors the factory announces fit the type `int`. -/
theorem C56_fields_fit (lines : List Str) (training : Bool) (f : Fields) (h : construct lines training = .done f) :
    FitsInt f.rfx ∧ FitsInt f.rfy ∧ FitsInt f.factorx ∧ FitsInt f.factory := by
  have key : ∀ (lines : List Str) (g f : Fields), measure training lines g = .done f → FieldsFit g → FieldsFit f := by
    intro lines
    induction lines with
    | nil => intro g f h hg; cases h; exact hg
    | cons l ls ih =>
      intro g f h hg
      obtain ⟨g', h1, h2⟩ := bind_done_inv h
      exact ih g' f h2 (measureLine_fits h1 hg)
  unfold construct at h
  obtain ⟨g, h1, h⟩ := bind_done_inv h
  have hg := key lines {} g h1 ⟨by unfold FitsInt; decide, by unfold FitsInt; decide, by unfold FitsInt; decide, by unfold FitsInt; decide⟩
  split at h
  · cases h; exact hg
  · obtain ⟨x, hx, h⟩ := bind_done_inv h
    obtain ⟨y, hy, h⟩ := bind_done_inv h
    cases h
    exact ⟨int_fits hx, int_fits hy, hg.2.2.1, hg.2.2.2⟩

/-- A text whose factor is beyond the range: it is reduced modulo 2^32. -/
example : (match construct ["?maxpooling size=2147483647x1".toList, "?maxpooling size=2x1".toList] false with | .done f => some (f.factorx, f.factory) | _ => none) =
    some (-2, 1) := by decide +kernel

end CN24.Props
