import Verif.Model.SettingsText
import Verif.Props.TrainSettings
import Verif.Proof.MatrixReport

/-!
C105: the line with the settings of the training.
-/

namespace CN24.ReadSettings
open CN24 CN24.Config

/-! A reader of the line, written without the printing function. -/

/-- The text between commas, each without blanks at its beginning. -/
def fields (t : Str) : List Str :=
  (t.foldr (fun c (acc : Str × List Str) => if c = ',' then ([], acc.1 :: acc.2) else (c :: acc.1, acc.2)) ([], [])
    |> fun p => p.1 :: p.2).map (·.dropWhile (· = ' '))

/-- What stands behind the label. -/
def labelled (label : Str) (t : Str) : Option Str :=
  (fields t).findSome? fun f => if f.take label.length = label then some (f.drop label.length) else none

/-- The labels of the real numbers; they are the abbreviations a user has to know. -/
def realLabel : TrainSettings.RealKey → Str
  | .l1 => "L1: ".toList
  | .l2 => "L2: ".toList
  | .lr => "LR: ".toList
  | .gamma => "GM: ".toList
  | .momentum => "MM: ".toList
  | .exponent => "EX: ".toList
  | .eta => "ET: ".toList
  | .mu => "MU: ".toList

/-- What a user can read from the line. -/
structure Shown where
  real : TrainSettings.RealKey → Option Str
  sequential : Option Nat
  parallel : Option Nat
  quickprop : Option Bool

def read (t : Str) : Shown :=
  ⟨fun k => labelled (realLabel k) t, (labelled "SB: ".toList t).bind ReadReport.decimal,
    (labelled "PB: ".toList t).bind ReadReport.decimal,
    if (fields t).getLast? = some "QP".toList then some true
    else if (fields t).getLast? = some "GD".toList then some false else none⟩

/-- The line behind its introduction. -/
def readLine (t : Str) : Option Shown :=
  if t.take 27 = "Current training settings: ".toList then some (read (t.drop 27)) else none

end CN24.ReadSettings

namespace CN24.Props
open CN24 CN24.Config CN24.ReadSettings CN24.MatrixReport CN24.TrainSettings
variable {D : Type _}

/-- What the line should tell of some settings. -/
def toShow (real : D → Str) (s : Settings D) : Shown :=
  ⟨fun k => some (real (s.real k)), some (s.count .sbatchsize), some (s.count .pbatchsize), some s.quickprop⟩

theorem fields_blank (b : Str) : fields (' ' :: b) = fields b := by
  unfold fields
  rw [List.foldr_cons, if_neg (by decide)]
  rfl

theorem fields_comma {a b : Str} (h : ',' ∉ a) : fields (a ++ (", ".toList ++ b)) = a.dropWhile (· = ' ') :: fields b := by
  rw [← fields_blank b]
  show fields (a ++ (',' :: ' ' :: b)) = _
  unfold fields
  rw [List.foldr_append, List.foldr_cons, if_pos rfl]
  have key : ∀ (a : Str) (q : Str × List Str), ',' ∉ a →
      a.foldr (fun c (acc : Str × List Str) => if c = ',' then ([], acc.1 :: acc.2) else (c :: acc.1, acc.2)) q =
        (a ++ q.1, q.2) := by
    intro a q
    induction a with
    | nil => intro _; rfl
    | cons c a ih =>
      intro h
      rw [List.foldr_cons, ih fun hm => h (List.mem_cons_of_mem _ hm), if_neg (fun hc : c = ',' => h (by rw [hc]; exact List.mem_cons_self))]
      rfl
  rw [key a _ h]
  simp

theorem fields_last {a : Str} (h : ',' ∉ a) : fields a = [a.dropWhile (· = ' ')] := by
  unfold fields
  have key : ∀ a : Str, ',' ∉ a →
      a.foldr (fun c (acc : Str × List Str) => if c = ',' then ([], acc.1 :: acc.2) else (c :: acc.1, acc.2)) ([], []) = (a, []) := by
    intro a
    induction a with
    | nil => intro _; rfl
    | cons c a ih =>
      intro h
      rw [List.foldr_cons, ih fun hm => h (List.mem_cons_of_mem _ hm), if_neg (fun hc : c = ',' => h (by rw [hc]; exact List.mem_cons_self))]
  rw [key a h]
  rfl

theorem digits_no_comma (n : Nat) : ',' ∉ digitsOf n := fun h => absurd (digitsOf_isDigit h) (by decide)

theorem settings_fields (real : D → Str) (hr : ∀ v, ',' ∉ real v) (s : Settings D) :
    fields (settingsText real s) =
      ["LR: ".toList ++ real (s.real .lr), "GM: ".toList ++ real (s.real .gamma), "EX: ".toList ++ real (s.real .exponent),
       "SB: ".toList ++ digitsOf (s.count .sbatchsize), "PB: ".toList ++ digitsOf (s.count .pbatchsize),
       "L1: ".toList ++ real (s.real .l1), "L2: ".toList ++ real (s.real .l2), "MM: ".toList ++ real (s.real .momentum),
       "MU: ".toList ++ real (s.real .mu), "ET: ".toList ++ real (s.real .eta),
       if s.quickprop then "QP".toList else "GD".toList] := by
  unfold settingsText
  have hl : ∀ (l v : Str), ',' ∉ l → ',' ∉ v → ',' ∉ l ++ v := fun l v h1 h2 h => (List.mem_append.1 h).elim h1 h2
  simp only [List.append_assoc]
  have e : ∀ (l v b : Str), ',' ∉ l → ',' ∉ v → (l ++ v).dropWhile (· = ' ') = l ++ v →
      fields (l ++ (v ++ (", ".toList ++ b))) = (l ++ v) :: fields b := by
    intro l v b h1 h2 h3
    rw [← List.append_assoc, fields_comma (hl l v h1 h2), h3]
  rw [e _ _ _ (by decide) (hr _) rfl, e _ _ _ (by decide) (hr _) rfl, e _ _ _ (by decide) (hr _) rfl,
    e _ _ _ (by decide) (digits_no_comma _) rfl, e _ _ _ (by decide) (digits_no_comma _) rfl,
    e _ _ _ (by decide) (hr _) rfl, e _ _ _ (by decide) (hr _) rfl, e _ _ _ (by decide) (hr _) rfl,
    e _ _ _ (by decide) (hr _) rfl, e _ _ _ (by decide) (hr _) rfl]
  cases s.quickprop
  · rw [fields_last (by decide)]; rfl
  · rw [fields_last (by decide)]; rfl

theorem settings_read (real : D → Str) (hr : ∀ v, ',' ∉ real v) (s : Settings D) : ReadSettings.read (settingsText real s) = toShow real s := by
  unfold ReadSettings.read toShow labelled
  rw [settings_fields real hr s]
  have h1 : (fun k => ["LR: ".toList ++ real (s.real .lr), "GM: ".toList ++ real (s.real .gamma), "EX: ".toList ++ real (s.real .exponent),
       "SB: ".toList ++ digitsOf (s.count .sbatchsize), "PB: ".toList ++ digitsOf (s.count .pbatchsize),
       "L1: ".toList ++ real (s.real .l1), "L2: ".toList ++ real (s.real .l2), "MM: ".toList ++ real (s.real .momentum),
       "MU: ".toList ++ real (s.real .mu), "ET: ".toList ++ real (s.real .eta),
       if s.quickprop then "QP".toList else "GD".toList].findSome? fun f =>
        if f.take (realLabel k).length = realLabel k then some (f.drop (realLabel k).length) else none) =
      fun k => some (real (s.real k)) := by
    funext k
    cases k <;> rfl
  rw [h1]
  congr 1
  · exact decimal_digitsOf _
  · exact decimal_digitsOf _
  · cases s.quickprop <;> rfl

/-- C105: the line printed before the first command tells, for every description, the settings that training uses: for each
real number the formatted last value in the description or the default, both batch sizes and the method.  Missing for the full
claim: the number of iterations (see `C105_iterations_hidden`) and digits beyond those that the formatting keeps. -/
theorem C105_shown_partial (conv : Str → D) (real : D → Str) (hr : ∀ v, ',' ∉ real v) (lines : List SetLine) (hne : lines ≠ [])
    (hok : ∀ i ∈ lines, i.Ok) (s : Settings D) :
    ∃ t w, shownSettings conv real (NetConfig.joinLines (lines.map SetLine.text)) s = .done t ∧ ReadSettings.readLine t = some w ∧
      (∀ k, w.real k = some (real ((((lines.filterMap (SetLine.real? k)).map conv).getLast?).getD (s.real k)))) ∧
      w.sequential = some (((lines.filterMap (SetLine.count? .sbatchsize)).getLast?).getD (s.count .sbatchsize)) ∧
      w.parallel = some (((lines.filterMap (SetLine.count? .pbatchsize)).getLast?).getD (s.count .pbatchsize)) ∧
      w.quickprop = some (((lines.filterMap SetLine.method?).getLast?).getD s.quickprop) := by
  obtain ⟨r, h1, h2, h3, h4⟩ := C71_settings conv lines hne hok s
  refine ⟨_, toShow real r, by unfold shownSettings; rw [h1]; rfl, ?_, fun k => ?_, ?_, ?_, ?_⟩
  · unfold ReadSettings.readLine
    have e1 : ("Current training settings: ".toList ++ settingsText real r).take 27 = "Current training settings: ".toList :=
      List.take_left' rfl
    have e2 : ("Current training settings: ".toList ++ settingsText real r).drop 27 = settingsText real r := List.drop_left' rfl
    rw [if_pos e1, e2, settings_read real hr]
  · exact congrArg (fun v => some (real v)) (h2 k)
  · exact congrArg some (h3 .sbatchsize)
  · exact congrArg some (h3 .pbatchsize)
  · exact congrArg some h4

/-- C105: settings with the same line agree in both batch sizes, the method, and every real number that the formatting keeps. -/
theorem C105_distinct (real : D → Str) (hr : ∀ v, ',' ∉ real v) (s s' : Settings D)
    (h : settingsText real s = settingsText real s') :
    (∀ k, real (s.real k) = real (s'.real k)) ∧ s.count .sbatchsize = s'.count .sbatchsize ∧
      s.count .pbatchsize = s'.count .pbatchsize ∧ s.quickprop = s'.quickprop := by
  have e : toShow real s = toShow real s' := by rw [← settings_read real hr, h, settings_read real hr]
  unfold toShow at e
  injection e with e1 e2 e3 e4
  exact ⟨fun k => Option.some.inj (congrFun e1 k), Option.some.inj e2, Option.some.inj e3, Option.some.inj e4⟩

/-- C105, refuted for the number of iterations: whatever the description says about it, the line is the same. -/
theorem C105_iterations_hidden (real : D → Str) (s : Settings D) (n : Nat) :
    settingsText real (s.setCount .iterations n) = settingsText real s ∧ (s.setCount .iterations n).count .iterations = n :=
  ⟨rfl, rfl⟩

/-- A description with some settings, and the line. -/
example : shownSettings (fun t => t) (fun t => t) "lr=0.01\nmu=2\nlr=0.001\npbatchsize=4\niterations=7\noptimization=quickprop".toList
      ⟨fun _ => "0.5".toList, fun _ => 1, false⟩ =
    .done "Current training settings: LR: 0.001, GM: 0.5, EX: 0.5, SB: 1, PB: 4, L1: 0.5, L2: 0.5, MM: 0.5, MU: 2, ET: 0.5, QP".toList := by
  decide +kernel

example : ∀ i ∈ [SetLine.real .lr "0.01".toList, .count .pbatchsize 4, .method true], i.Ok := by
  simp [SetLine.Ok]
  decide +kernel

end CN24.Props
