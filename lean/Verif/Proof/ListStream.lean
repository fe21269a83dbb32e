import Verif.Model.ListStream
import Verif.Proof.Image

namespace CN24
open CN24.Tensor

theorem forO_ofOption {σ : Type _} {n : Nat} {f : Nat → σ → Outcome σ} {g : Nat → σ → Option σ}
    (h : ∀ i s, i < n → f i s = .ofOption (g i s)) (s : σ) : forO n f s = .ofOption (forLoop n g s) := by
  induction n with
  | zero => rfl
  | succ n ih =>
    rw [forO, forLoop_succ, ih fun i s hi => h i s (by omega)]
    cases forLoop n g s with
    | none => rfl
    | some r => exact h n r (by omega)

theorem forO_fatal {σ : Type _} {n : Nat} {f : Nat → σ → Outcome σ} {s : σ} (hn : 0 < n) (h : f 0 s = .fatal) :
    forO n f s = .fatal := by
  induction n with
  | zero => omega
  | succ n ih =>
    rw [forO]
    by_cases h0 : n = 0
    · subst h0; exact h
    · rw [ih (by omega)]; rfl

namespace ListStream
open CN24.Config CN24.Image

theorem blank_wf (rgb : Tensor ℚ) (n : Nat) : (blank rgb n).WF := by
  simp [WF, blank, elements]
  ring

theorem blank_get (rgb : Tensor ℚ) (n : Nat) {x y c s : Nat} (h : (blank rgb n).InRange x y c s) :
    (blank rgb n).get x y c s = some 0 := by
  have := offset_lt _ h
  rw [← blank_wf rgb n] at this
  unfold Tensor.get rd
  rw [List.getElem?_eq_getElem this]
  simp [blank]

/-- The colour of a pixel of a grey or colour image. -/
def colourAt (t : Tensor ℚ) (x y : Nat) : ℚ × ℚ × ℚ :=
  if t.maps = 3 then (t.val x y 0 0, t.val x y 1 0, t.val x y 2 0) else (t.val x y 0 0, t.val x y 0 0, t.val x y 0 0)

theorem pixelColour_eq {t : Tensor ℚ} (hw : t.WF) (hs : 0 < t.samples) (hm : t.maps = 3 ∨ t.maps = 1) {x y : Nat}
    (hx : x < t.width) (hy : y < t.height) : pixelColour t x y = .done (colourAt t x y) := by
  unfold pixelColour colourAt
  rcases hm with h | h
  · rw [if_pos h, if_pos h, get_eq_val hw ⟨hx, hy, by omega, hs⟩, get_eq_val hw ⟨hx, hy, by omega, hs⟩,
      get_eq_val hw ⟨hx, hy, by omega, hs⟩]
    rfl
  · rw [if_neg (by omega), if_pos h, if_neg (by omega), get_eq_val hw ⟨hx, hy, by omega, hs⟩]
    rfl

theorem markClasses_spec (colors : List Nat) {x y : Nat} (l : ℚ × ℚ × ℚ) {t : Tensor ℚ} (hw : t.WF)
    (hx : x < t.width) (hy : y < t.height) (hs : 0 < t.samples) (hm : t.maps = colors.length) :
    ∃ u, markClasses colors x y l t = some u ∧ Upd t u (fun x' y' c s =>
      if x' = x ∧ y' = y ∧ s = 0 ∧ l = colour (colors.getD c 0) then some 1 else none) := by
  refine upd_loop hw (fun i x' y' c s =>
      if x' = x ∧ y' = y ∧ c = i ∧ s = 0 ∧ l = colour (colors.getD i 0) then some 1 else none) _ ?_ ?_ ?_
  · intro i u hi hsh hu
    by_cases h : l = colour (colors.getD i 0)
    · rw [if_pos h]
      obtain ⟨u', e, hu'⟩ := upd_put hu (x := x) (y := y) (m := i) (s := 0) (hsh.inRange.2 ⟨hx, hy, by omega, hs⟩) (1 : ℚ)
      refine ⟨u', e, hu'.congr ?_⟩
      intro x' y' m s _
      simp only [h, and_true]
    · rw [if_neg h]
      refine ⟨u, rfl, (Upd.refl hu).congr ?_⟩
      intro x' y' m s _
      rw [if_neg]
      rintro ⟨-, -, -, -, e⟩
      exact h e
  · intro i x' y' c s v hi hin h
    split at h
    · next hc =>
      obtain ⟨a, b, rfl, d, e⟩ := hc
      rw [if_pos ⟨a, b, d, e⟩]; exact h
    · cases h
  · intro x' y' c s v hin h
    split at h
    · next hc =>
      obtain ⟨a, b, d, e⟩ := hc
      exact ⟨c, by rw [← hm]; exact hin.2.2.1, by rw [if_pos ⟨a, b, rfl, d, e⟩]; exact h⟩
    · cases h

theorem hardLabels_spec (colors : List Nat) {rgb : Tensor ℚ} (hw : rgb.WF) (hs : 0 < rgb.samples)
    (hm : rgb.maps = 3 ∨ rgb.maps = 1) :
    ∃ t, hardLabels colors rgb = .done t ∧ Sh (blank rgb colors.length) t ∧ t.WF ∧
      ∀ x y c, x < rgb.width → y < rgb.height → c < colors.length →
        t.get x y c 0 = some (if colourAt rgb x y = colour (colors.getD c 0) then 1 else 0) := by
  have e1 : hardLabels colors rgb = .ofOption (forLoop rgb.height (fun y => forLoop rgb.width fun x label =>
      markClasses colors x y (colourAt rgb x y) label) (blank rgb colors.length)) := by
    refine forO_ofOption (fun y s hy => ?_) _
    refine forO_ofOption (fun x s hx => ?_) _
    rw [pixelColour_eq hw hs hm hx hy]
    rfl
  have e2 : ∃ t, forLoop rgb.height (fun y => forLoop rgb.width fun x label =>
      markClasses colors x y (colourAt rgb x y) label) (blank rgb colors.length) = some t ∧
      Upd (blank rgb colors.length) t (fun x y c s =>
        if s = 0 ∧ colourAt rgb x y = colour (colors.getD c 0) then some 1 else none) := by
    refine upd_loop (blank_wf _ _) (fun y x' y' c s =>
      if y' = y ∧ s = 0 ∧ colourAt rgb x' y = colour (colors.getD c 0) then some 1 else none) _ ?_ ?_ ?_
    · intro y u hy hsh hu
      refine upd_loop hu (fun x x' y' c s =>
        if x' = x ∧ y' = y ∧ s = 0 ∧ colourAt rgb x y = colour (colors.getD c 0) then some 1 else none) _ ?_ ?_ ?_
      · intro x v hx hsh' hv
        obtain ⟨q1, q2, q3, q4⟩ := hsh.trans hsh'
        refine markClasses_spec colors (colourAt rgb x y) hv (q2 ▸ hx) (q3 ▸ hy) ?_ q4.symm
        rw [← q1]; exact Nat.one_pos
      · intro x x' y' c s v hx hin h
        split at h
        · next hc =>
          obtain ⟨rfl, a, b, d⟩ := hc
          rw [if_pos ⟨a, b, d⟩]; exact h
        · cases h
      · intro x' y' c s v hin h
        split at h
        · next hc =>
          obtain ⟨a, b, d⟩ := hc
          refine ⟨x', ?_, by rw [if_pos ⟨rfl, a, b, d⟩]; exact h⟩
          exact (hsh.inRange.1 hin).1
        · cases h
    · intro y x' y' c s v hy hin h
      split at h
      · next hc =>
        obtain ⟨rfl, b, d⟩ := hc
        rw [if_pos ⟨b, d⟩]; exact h
      · cases h
    · intro x' y' c s v hin h
      split at h
      · next hc =>
        obtain ⟨b, d⟩ := hc
        exact ⟨y', hin.2.1, by rw [if_pos ⟨rfl, b, d⟩]; exact h⟩
      · cases h
  obtain ⟨t, e2, hu⟩ := e2
  refine ⟨t, by rw [e1, e2]; rfl, hu.sh, hu.wf, ?_⟩
  intro x y c hx hy hc
  have hin : (blank rgb colors.length).InRange x y c 0 := ⟨hx, hy, hc, Nat.one_pos⟩
  rw [hu.get x y c 0 hin, blank_get _ _ hin]
  by_cases h : colourAt rgb x y = colour (colors.getD c 0)
  · rw [if_pos ⟨rfl, h⟩, if_pos h]; rfl
  · rw [if_neg (by tauto), if_neg h]; rfl

theorem softLabels_spec (near : ℚ × ℚ × ℚ → ℚ × ℚ × ℚ → ℚ) (color : Nat) {rgb : Tensor ℚ} (hw : rgb.WF)
    (hs : 0 < rgb.samples) (hm : rgb.maps = 3 ∨ rgb.maps = 1) :
    ∃ t, softLabels near color rgb = .done t ∧ Sh (blank rgb 1) t ∧ t.WF ∧
      ∀ x y, x < rgb.width → y < rgb.height → t.get x y 0 0 = some (near (colourAt rgb x y) (colour color)) := by
  have e1 : softLabels near color rgb = .ofOption (forLoop rgb.height (fun y => forLoop rgb.width fun x label =>
      label.put x y 0 0 (near (colourAt rgb x y) (colour color))) (blank rgb 1)) := by
    refine forO_ofOption (fun y s hy => ?_) _
    refine forO_ofOption (fun x s hx => ?_) _
    rw [pixelColour_eq hw hs hm hx hy]
    rfl
  obtain ⟨t, h1, h2, h3, h4⟩ := nest_rows (blank_wf rgb 1) (f := fun _ _ y x label =>
      label.put x y 0 0 (near (colourAt rgb x y) (colour color)))
    (v := fun x y _ _ => near (colourAt rgb x y) (colour color)) (by
      intro s m y x u hin _
      have h1 : s = 0 := Nat.lt_one_iff.1 hin.2.2.2
      have h2 : m = 0 := Nat.lt_one_iff.1 hin.2.2.1
      rw [h1, h2])
  refine ⟨t, ?_, h2, h3, fun x y hx hy => h4 x y 0 0 ⟨hx, hy, Nat.one_pos, Nat.one_pos⟩⟩
  rw [e1, ← Outcome.ofOption_some, ← h1]
  show _ = Outcome.ofOption (forLoop 1 _ _)
  rw [forLoop_succ, forLoop_zero, Option.bind_some]
  show _ = Outcome.ofOption (forLoop 1 _ _)
  rw [forLoop_succ, forLoop_zero, Option.bind_some]
  rfl

theorem splitLast_none {s : Str} (h : ';' ∉ s) : splitLast s = none := by
  induction s with
  | nil => rfl
  | cons c s ih =>
    unfold splitLast
    rw [ih (fun h' => h (List.mem_cons_of_mem _ h'))]
    simp only
    rw [if_neg]
    rintro rfl
    exact h List.mem_cons_self

theorem splitLast_append (a : Str) {b : Str} (h : ';' ∉ b) : splitLast (a ++ ';' :: b) = some (a, b) := by
  induction a with
  | nil => simp [splitLast, splitLast_none h]
  | cons c a ih => simp only [List.cons_append, splitLast, ih]

theorem linesOf_unlines {ls : List Str} (h : ∀ l ∈ ls, '\n' ∉ l) :
    NetConfig.linesOf (ls.flatMap (· ++ ['\n'])) = ls ++ [[]] := by
  induction ls with
  | nil => rfl
  | cons l ls ih =>
    have ih := ih fun l hl => h l (List.mem_cons_of_mem _ hl)
    have hl := h l List.mem_cons_self
    rw [List.flatMap_cons, List.append_assoc]
    have : ∀ (w : Str) (rest : Str) (r : List Str), '\n' ∉ w → NetConfig.linesOf rest = r →
        NetConfig.linesOf (w ++ (['\n'] ++ rest)) = w :: r := by
      intro w rest r hw hr
      induction w with
      | nil => simp [NetConfig.linesOf, hr]
      | cons c w ihw =>
        have hc : c ≠ '\n' := fun e => hw (by rw [e]; exact List.mem_cons_self)
        rw [List.cons_append, NetConfig.linesOf, if_neg hc, ihw fun h' => hw (List.mem_cons_of_mem _ h')]
    exact this l _ _ hl ih

end ListStream
end CN24
