import Verif.Proof.ClassStats
import Mathlib.Data.Rat.Cast.Order
import Mathlib.Algebra.Order.Field.Rat
import Mathlib.Tactic.IntervalCases

/-
Property theorems about the tool that reports the class balance of a dataset
(tools/tensorStreamStats.cpp): C78.
-/

namespace CN24.Props
open CN24 CN24.Tensor CN24.TensorStreamDataset CN24.ClassStats

variable {R : Type _} [Field R] [LinearOrder R]

/-- The training data: pair `i` is `image i`, `label i`, and `cls i x y` is the class the label names
at a pixel. -/
structure Labelled (lowest : R) (ds : Dataset R) (image label : Nat → Tensor R)
    (cls : Nat → Nat → Nat → Nat) : Prop where
  images : ∀ i, i < ds.training.length / 2 → ds.training[2 * i]? = some (image i)
  labels : ∀ i, i < ds.training.length / 2 → ds.training[2 * i + 1]? = some (label i)
  fits : ∀ i, i < ds.training.length / 2 → PairFits ds lowest (image i) (label i)
  classes : ∀ i x y, i < ds.training.length / 2 → x < (image i).width → y < (image i).height →
    FirstBest (label i) x y 0 (cls i x y)

/-- The pixels of class `k` in the `n` images, each counted with `v`. -/
def pixelsOf (n : Nat) (image : Nat → Tensor R) (cls : Nat → Nat → Nat → Nat)
    (v : Nat → Nat → Nat → Nat → R) (k : Nat) : R :=
  ∑ i ∈ Finset.range n, ∑ y ∈ Finset.range (image i).height, ∑ x ∈ Finset.range (image i).width,
    if cls i x y = k then v x y (image i).width (image i).height else 0

/-- C78: the tool's two counts of a class are its pixels, times the class weight in the table headed
"ignoring weights" and times the square of the class weight in the other one.  The padding and what
the tensors held before count nothing. -/
theorem C78_counts (lowest : R) (ef : Nat → Nat → Nat → Nat → R) (ds : Dataset R) (classes : Nat)
    (hcl : ds.labelMaps ≤ classes) (image label : Nat → Tensor R) (cls : Nat → Nat → Nat → Nat)
    (hl : Labelled lowest ds image label cls) (q : Nat → R)
    (hq : ∀ k, k < ds.labelMaps → ds.classWeights[k]? = some (q k))
    (outs : Outputs R) (hfit : OutputsFit ds 1 outs) :
    ∃ c, count lowest ef ds classes outs = some c ∧
      c.plain = (List.range classes).map (fun k =>
        q k * pixelsOf (ds.training.length / 2) image cls ef k) ∧
      c.weighted = (List.range classes).map (fun k =>
        q k * q k * pixelsOf (ds.training.length / 2) image cls ef k) := by
  obtain ⟨s, h1, h2, h3⟩ := forLoop_acc (n := ds.training.length / 2)
    (body := countBody lowest ef ds)
    (Rep := fun st f => OutputsFit ds 1 st.1 ∧ Rep classes st.2 f)
    (g := fun i => ∑ y ∈ Finset.range (image i).height, ∑ x ∈ Finset.range (image i).width,
        share (cls i x y) (ef x y (image i).width (image i).height * q (cls i x y)) (q (cls i x y)))
    (s := (outs, start classes)) (f := 0)
    (by
      intro i st f hi ⟨hf, hr⟩
      obtain ⟨o, o1, o2, o3⟩ := C30_training_sample lowest ef ds 1 st.1 hf 0 i (by omega) (image i)
        (label i) (hl.images i hi) (hl.labels i hi) (hl.fits i hi)
      obtain ⟨c, c1, c2⟩ := countSample_rep (cls := cls i) hcl (hl.fits i hi) o2 o3 hq
        (fun x y hx hy => hl.classes i x y hi hx hy) hr
      refine ⟨(o, c), ?_, o2, c2⟩
      unfold countBody
      rw [o1, Option.bind_some, c1]
      rfl)
    (by
      refine ⟨hfit, ?_, ?_⟩ <;>
      · simp only [start]
        symm
        rw [List.eq_replicate_iff]
        simp)
  refine ⟨s.2, by unfold count; rw [h1]; rfl, ?_, ?_⟩
  · rw [h3.1]
    apply List.map_congr_left
    intro k _
    rw [zero_add]
    simp only [pixelsOf, Prod.fst_sum, Finset.sum_apply, share, Finset.mul_sum]
    refine Finset.sum_congr rfl fun i _ => Finset.sum_congr rfl fun y _ =>
      Finset.sum_congr rfl fun x _ => ?_
    by_cases e : cls i x y = k
    · subst e; simp [mul_comm]
    · simp [e, Ne.symm e]
  · rw [h3.2]
    apply List.map_congr_left
    intro k _
    rw [zero_add]
    simp only [pixelsOf, Prod.snd_sum, Finset.sum_apply, share, Finset.mul_sum]
    refine Finset.sum_congr rfl fun i _ => Finset.sum_congr rfl fun y _ =>
      Finset.sum_congr rfl fun x _ => ?_
    by_cases e : cls i x y = k
    · subst e; simp; ring
    · simp [e, Ne.symm e]

/-- C78: with all class weights 1 both tables count the pixels.  The full property asks for the
first table to ignore the weights and the second one to apply them once, whatever they are. -/
theorem C78_counts_pixels_partial (lowest : R) (ds : Dataset R) (classes : Nat)
    (hcl : ds.labelMaps ≤ classes) (image label : Nat → Tensor R) (cls : Nat → Nat → Nat → Nat)
    (hl : Labelled lowest ds image label cls)
    (hone : ∀ k, k < ds.labelMaps → ds.classWeights[k]? = some 1)
    (outs : Outputs R) (hfit : OutputsFit ds 1 outs) :
    ∃ c, count lowest (fun _ _ _ _ => 1) ds classes outs = some c ∧ c.plain = c.weighted ∧
      c.plain = (List.range classes).map (fun k => (((∑ i ∈ Finset.range (ds.training.length / 2),
        ∑ y ∈ Finset.range (image i).height,
          ((Finset.range (image i).width).filter (fun x => cls i x y = k)).card : Nat)) : R)) := by
  obtain ⟨c, h1, h2, h3⟩ := C78_counts lowest (fun _ _ _ _ => 1) ds classes hcl image label cls hl
    (fun _ => 1) hone outs hfit
  refine ⟨c, h1, ?_, ?_⟩
  · rw [h2, h3]; simp
  · rw [h2]
    apply List.map_congr_left
    intro k _
    simp [pixelsOf, Finset.sum_boole]

/-! ### The tables -/

omit [LinearOrder R] in
theorem total_eq_sum (l : List R) : total l = l.sum := by
  unfold total
  rw [List.sum_eq_foldl]

theorem occurring_eq (l : List R) : occurring l = ((l.countP (fun c => decide (0 < c)) : Nat) : R) := by
  have h : ∀ (l : List R) (a : R), l.foldl (fun t c => if 0 < c then t + 1 else t) a =
      a + ((l.countP (fun c => decide (0 < c)) : Nat) : R) := by
    intro l
    induction l with
    | nil => intro a; simp
    | cons c l ih =>
      intro a
      rw [List.foldl_cons, ih, List.countP_cons]
      by_cases hc : 0 < c
      · simp [hc]; ring
      · simp [hc]
  rw [occurring, h, zero_add]

/-- C78: a table has a line for every class with its count and its part of the sum, and the last
column is the same for all classes that occur: the sum divided by the number of such classes.  The
other classes get 0. -/
theorem C78_table (counts : List R) (k : Nat) (c : R) (h : counts[k]? = some c) :
    ∃ r, (table counts)[k]? = some r ∧ (table counts).length = counts.length ∧ r.count = c ∧
      r.ratio = c / counts.sum ∧ r.corrected = r.correction * c ∧
      (0 < c → r.corrected = counts.sum / ((counts.countP (fun c => decide (0 < c)) : Nat) : R)) ∧
      (¬ 0 < c → r.correction = 0 ∧ r.corrected = 0) := by
  refine ⟨row counts c, by simp [table, h], by simp [table], rfl, ?_, rfl, ?_, ?_⟩
  · simp [row, total_eq_sum]
  · intro hc
    have hne : c ≠ 0 := ne_of_gt hc
    simp only [row, if_pos hc, total_eq_sum, occurring_eq]
    by_cases ht : counts.sum = 0
    · simp [ht]
    · by_cases ho : ((counts.countP (fun c => decide (0 < c)) : Nat) : R) = 0
      · simp [ho]
      · field_simp
  · intro hc
    simp [row, if_neg hc]

/-- C78: the parts of a table add up to 1. -/
theorem C78_ratios (counts : List R) (h : counts.sum ≠ 0) :
    ((table counts).map (·.ratio)).sum = 1 := by
  have e : (table counts).map (·.ratio) = counts.map (fun c => c / counts.sum) := by
    simp [table, row, total_eq_sum, Function.comp_def]
  have g : ∀ l : List R, (l.map (fun c => c / counts.sum)).sum = l.sum / counts.sum := by
    intro l
    induction l with
    | nil => simp
    | cons a l ih => simp [ih, add_div]
  rw [e, g, div_self h]

/-- The dataset with every class weight multiplied by the correction in a line of a table. -/
def correctedBy (rows : List (Row R)) (ds : Dataset R) : Dataset R :=
  ⟨ds.training, ds.testing, List.zipWith (fun w r => w * r.correction) ds.classWeights rows,
    ds.maxWidth, ds.maxHeight, ds.inputMaps, ds.labelMaps⟩

/-- C78: multiplying the class weights by the corrections of the first table balances the dataset:
the classes that occur then have equal counts in the first table, and all others 0. -/
theorem C78_correction_balances (lowest : R)
    (ef : Nat → Nat → Nat → Nat → R) (ds : Dataset R)
    (image label : Nat → Tensor R) (cls : Nat → Nat → Nat → Nat)
    (hl : Labelled lowest ds image label cls)
    (hcw : ds.labelMaps ≤ ds.classWeights.length)
    (outs outs' : Outputs R) (hfit : OutputsFit ds 1 outs) (hfit' : OutputsFit ds 1 outs')
    (c : Counts R) (hc : count lowest ef ds ds.classWeights.length outs = some c) :
    ∃ c', count lowest ef (correctedBy (table c.plain) ds)
        ds.classWeights.length outs' = some c' ∧
      ∀ (k : Nat) (v : R), c.plain[k]? = some v → c'.plain[k]? = some (if 0 < v then
        c.plain.sum / ((c.plain.countP (fun c => decide (0 < c)) : Nat) : R) else 0) := by
  obtain ⟨c0, h1, h2, _⟩ := C78_counts lowest ef ds ds.classWeights.length hcw image label cls hl
    (fun k => ds.classWeights.getD k 0)
    (fun k hk => by
      have : k < ds.classWeights.length := by omega
      simp [this]) outs hfit
  rw [hc] at h1
  obtain rfl := Option.some.inj h1
  have hlen : c.plain.length = ds.classWeights.length := by simp [h2]
  set ds' : Dataset R := correctedBy (table c.plain) ds with hds'
  have hlen' : ds'.classWeights.length = ds.classWeights.length := by
    simp [hds', correctedBy, table, hlen]
  have hl' : Labelled lowest ds' image label cls := by
    refine ⟨hl.images, hl.labels, fun i hi => ?_, hl.classes⟩
    have p := hl.fits i hi
    exact { p with classes := by rw [hlen']; exact hcw }
  obtain ⟨c', g1, g2, _⟩ := C78_counts lowest ef ds' ds.classWeights.length hcw image label cls hl'
    (fun k => ds'.classWeights.getD k 0)
    (fun k hk => by
      have hk' : k < ds.labelMaps := hk
      have : k < ds'.classWeights.length := by omega
      simp [this]) outs'
    ⟨hfit'.data, hfit'.label, hfit'.helper, hfit'.error⟩
  refine ⟨c', g1, ?_⟩
  intro k v hv
  have hk : k < ds.classWeights.length := by
    have := (List.getElem?_eq_some_iff.1 hv).1
    omega
  obtain ⟨r, r1, _, r3, _, r5, r6, r7⟩ := C78_table c.plain k v hv
  have ev : v = ds.classWeights[k] * pixelsOf (ds.training.length / 2) image cls ef k := by
    have := hv
    rw [h2] at this
    simp [hk] at this
    exact this.symm
  have ew : ds'.classWeights.getD k 0 = ds.classWeights[k] * r.correction := by
    have : (correctedBy (table c.plain) ds).classWeights[k]? =
        some (ds.classWeights[k] * r.correction) := by
      simp only [correctedBy, List.getElem?_zipWith, r1, List.getElem?_eq_getElem hk]
    rw [hds', List.getD_eq_getElem?_getD, this]
    rfl
  have : c'.plain[k]? = some (ds'.classWeights.getD k 0 *
      pixelsOf (ds.training.length / 2) image cls ef k) := by
    rw [g2]
    rw [List.getElem?_map, List.getElem?_range hk]
    rfl
  rw [this, ew]
  have e2 : ds.classWeights[k] * r.correction * pixelsOf (ds.training.length / 2) image cls ef k =
      r.corrected := by
    rw [r5, ev]; ring
  rw [e2]
  by_cases hv0 : 0 < v
  · rw [if_pos hv0, r6 hv0]
  · rw [if_neg hv0, (r7 hv0).2]

/-! ### What the tool gets wrong -/

/-- A dataset of one image of 2 x 1 pixels, the first of class 0 and the second of class 1. -/
def tinySet (cw : List Rat) : Dataset Rat :=
  { training := [⟨1, 2, 1, 1, [5, 6]⟩, ⟨1, 2, 1, 2, [1, 0, 0, 1]⟩], testing := [],
    classWeights := cw, maxWidth := 2, maxHeight := 1, inputMaps := 1, labelMaps := 2 }

/-- Its four tensors. -/
def tinyOuts : Outputs Rat :=
  { data := ⟨1, 2, 1, 1, [7, 7]⟩, label := ⟨1, 2, 1, 2, [7, 7, 7, 7]⟩,
    helper := ⟨1, 2, 1, 2, [7, 7, 7, 7]⟩, error := ⟨1, 2, 1, 1, [7, 7]⟩ }

/-- C78, violated: the table headed "ignoring weights" does not ignore them, and the other one
applies them twice.  With the weights 1 and 3 the classes of one pixel each are reported as 1 and 3,
and as 1 and 9. -/
theorem C78_weights_applied_twice :
    count (-100) (fun _ _ _ _ => 1) (tinySet [1, 1]) 2 tinyOuts = some ⟨[1, 1], [1, 1]⟩ ∧
    count (-100) (fun _ _ _ _ => 1) (tinySet [1, 3]) 2 tinyOuts = some ⟨[1, 3], [1, 9]⟩ := by
  decide +kernel

/-- C78, violated: the corrections of the table headed "not ignoring weights" do not balance the
dataset.  With the weights 1 and 3 they are 5 and 5/9; the corrected weights 5 and 5/3 leave class 0
three times as heavy as class 1, though both have one pixel. -/
theorem C78_weighted_corrections_mislead :
    (table ([1, 9] : List Rat)).map (·.correction) = [5, 5 / 9] ∧
    count (-100) (fun _ _ _ _ => 1) (tinySet [1 * 5, 3 * (5 / 9)]) 2 tinyOuts =
      some ⟨[5, 5 / 3], [25, 25 / 9]⟩ := by
  decide +kernel

/-- C78: with a single label map every pixel counts for class 0, whatever its label says. -/
theorem C78_one_map (lowest : R) (ef : Nat → Nat → Nat → Nat → R) (ds : Dataset R) (classes : Nat)
    (hone : ds.labelMaps = 1) (hcl : 1 ≤ classes) (image label : Nat → Tensor R)
    (cls : Nat → Nat → Nat → Nat) (hl : Labelled lowest ds image label cls)
    (outs : Outputs R) (hfit : OutputsFit ds 1 outs) :
    ∃ c, count lowest ef ds classes outs = some c ∧
      ∀ k, 0 < k → k < classes → c.plain[k]? = some 0 ∧ c.weighted[k]? = some 0 := by
  by_cases hn : 0 < ds.training.length / 2
  · have hp := hl.fits 0 hn
    have hq : ∀ k, k < ds.labelMaps → ds.classWeights[k]? = some (ds.classWeights.getD k 0) := by
      intro k hk
      have := hp.classes
      have : k < ds.classWeights.length := by omega
      simp [this]
    obtain ⟨c, h1, h2, h3⟩ := C78_counts lowest ef ds classes (by omega) image label cls hl _ hq outs
      hfit
    refine ⟨c, h1, fun k hk hkc => ?_⟩
    have hz : pixelsOf (ds.training.length / 2) image cls ef k = 0 := by
      unfold pixelsOf
      refine Finset.sum_eq_zero fun i hi => Finset.sum_eq_zero fun y hy =>
        Finset.sum_eq_zero fun x hx => ?_
      have hi' := Finset.mem_range.1 hi
      have := (hl.classes i x y hi' (Finset.mem_range.1 hx) (Finset.mem_range.1 hy)).1
      have := (hl.fits i hi').label_maps
      rw [if_neg (by omega)]
    rw [h2, h3]
    simp [hkc, hz]
  · have h0 : ds.training.length / 2 = 0 := by omega
    refine ⟨start classes, ?_, ?_⟩
    · unfold count
      rw [h0]
      rfl
    · intro k _ hkc
      simp [start, hkc]

/-- C78, violated: a pair that cannot be loaded is not left out.  The label of the second pair has
one map too few, `GetTrainingSample` reports that it failed, and the tool counts the label of the
first pair once more. -/
theorem C78_failed_sample_counted :
    let ds : Dataset Rat := { tinySet [1, 1] with
      training := (tinySet [1, 1]).training ++ [⟨1, 2, 1, 1, [5, 6]⟩, ⟨1, 2, 1, 1, [1, 1]⟩] }
    (∀ o : Outputs Rat, o = tinyOuts →
      (getTrainingSample (-100) (fun _ _ _ _ => 1) ds o 0 1).map (·.1) = some false) ∧
    count (-100) (fun _ _ _ _ => 1) ds 2 tinyOuts = some ⟨[2, 2], [2, 2]⟩ := by
  constructor
  · rintro o rfl
    decide +kernel
  · decide +kernel

/-- C78, violated: the first pair that cannot be loaded is counted from the uninitialised tensors. -/
theorem C78_uninitialised_counted :
    let ds : Dataset Rat := { tinySet [1, 1] with
      training := [⟨1, 2, 1, 1, [5, 6]⟩, ⟨1, 2, 1, 1, [1, 1]⟩] }
    count (-100) (fun _ _ _ _ => 1) ds 2 tinyOuts = some ⟨[2, 0], [2, 0]⟩ ∧
    count (-100) (fun _ _ _ _ => 1) ds 2
      { tinyOuts with label := ⟨1, 2, 1, 2, [7, 7, 8, 8]⟩ } = some ⟨[0, 2], [0, 2]⟩ := by
  decide +kernel

/-- C78, violated: labels with more maps than the dataset has classes make the tool write outside
its arrays. -/
theorem C78_too_many_maps :
    count (-100) (fun _ _ _ _ => 1) (tinySet [1, 1]) 1 tinyOuts = none := by
  decide +kernel

/-- Non-vacuity: the hypotheses on `tinySet`. -/
example : Labelled (-100) (tinySet [1, 3]) (fun _ => ⟨1, 2, 1, 1, [5, 6]⟩)
    (fun _ => ⟨1, 2, 1, 2, [1, 0, 0, 1]⟩) (fun _ x _ => x) ∧ OutputsFit (tinySet [1, 3]) 1 tinyOuts := by
  refine ⟨⟨?_, ?_, ?_, ?_⟩, ⟨⟨⟨rfl, rfl, rfl, rfl⟩, rfl⟩, ⟨⟨rfl, rfl, rfl, rfl⟩, rfl⟩,
    ⟨⟨rfl, rfl, rfl, rfl⟩, rfl⟩, ⟨⟨rfl, rfl, rfl, rfl⟩, rfl⟩⟩⟩
  · intro i hi
    have : i = 0 := by simp [tinySet] at hi; omega
    subst this; rfl
  · intro i hi
    have : i = 0 := by simp [tinySet] at hi; omega
    subst this; rfl
  · intro i _
    constructor <;> decide
  · intro i x y _ hx hy
    have hy' : y = 0 := by dsimp at hy; omega
    subst hy'
    dsimp at hx
    refine ⟨hx, 1, ?_, ?_⟩
    · interval_cases x <;> rfl
    · intro c w hc hw
      dsimp at hc
      interval_cases x <;> interval_cases c <;>
        simp [Tensor.get, Tensor.offset, rd] at hw <;> subst hw <;> decide

/-- Non-vacuity: a table of three classes, one of which does not occur. -/
example : table ([1, 0, 3] : List Rat) =
    [⟨1, 1 / 4, 2, 2⟩, ⟨0, 0, 0, 0⟩, ⟨3, 3 / 4, 2 / 3, 2⟩] := by decide +kernel

end CN24.Props
