import Verif.Props.Image
import Verif.Proof.ListStream

/-! C68: streams of listed image files. -/

namespace CN24.Props
open CN24 CN24.Tensor CN24.Image CN24.Config CN24.ListStream

/-- A list file: one name per line. -/
def listText (names : List Str) : Str := names.flatMap (· ++ ['\n'])

/-- The pairs of names that are considered: both lists in step, up to the first name of less than five
characters. -/
def consideredPairs (is ls : List Str) : List (Str × Str) :=
  (is.zip ls).takeWhile fun p => decide (5 ≤ p.1.length ∧ 5 ≤ p.2.length)

/-- The pairs whose images have the same size. -/
def matchingPairs (img : Str → Tensor ℚ) (idir ldir : Str) (ps : List (Str × Str)) : List (Str × Str) :=
  ps.filter fun p => decide ((img (idir ++ p.1)).width = (img (ldir ++ p.2)).width ∧
    (img (idir ++ p.1)).height = (img (ldir ++ p.2)).height)

/-- What the stream knows about a pair: the image as it is, the label image with one map per class. -/
def entriesOf (img : Str → Tensor ℚ) (classes : Nat) (idir ldir : Str) (p : Str × Str) : List Meta :=
  [⟨idir ++ p.1, (img (idir ++ p.1)).width, (img (idir ++ p.1)).height, (img (idir ++ p.1)).maps,
      (img (idir ++ p.1)).samples⟩,
    ⟨ldir ++ p.2, (img (ldir ++ p.2)).width, (img (ldir ++ p.2)).height, classes, (img (ldir ++ p.2)).samples⟩]

theorem loadLoop_eq (fs : Files) (img : Str → Tensor ℚ) (classes : Nat) (idir ldir : Str) :
    ∀ (is ls : List Str) (tensors : List Meta) (count : Nat),
      (∀ p ∈ consideredPairs is ls, imageTensor fs (idir ++ p.1) = .done (img (idir ++ p.1)) ∧
        imageTensor fs (ldir ++ p.2) = .done (img (ldir ++ p.2))) →
      loadLoop fs classes idir ldir (is ++ [[]]) (ls ++ [[]]) tensors count =
        .done (tensors ++ (matchingPairs img idir ldir (consideredPairs is ls)).flatMap
          (entriesOf img classes idir ldir), count + 2 * (matchingPairs img idir ldir (consideredPairs is ls)).length) := by
  intro is
  induction is with
  | nil =>
    intro ls tensors count _
    show loadLoop fs classes idir ldir ([] :: []) _ tensors count = _
    rw [loadLoop, if_pos (Or.inl (by simp))]
    simp [consideredPairs, matchingPairs]
  | cons i is ih =>
    intro ls tensors count h
    cases ls with
    | nil =>
      show loadLoop fs classes idir ldir (i :: (is ++ [[]])) ([] :: []) tensors count = _
      rw [loadLoop, if_pos (Or.inr (by simp))]
      simp [consideredPairs, matchingPairs]
    | cons l ls =>
      show loadLoop fs classes idir ldir (i :: (is ++ [[]])) (l :: (ls ++ [[]])) tensors count = _
      rw [loadLoop]
      by_cases hlen : 5 ≤ i.length ∧ 5 ≤ l.length
      · have hcons : consideredPairs (i :: is) (l :: ls) = (i, l) :: consideredPairs is ls := by
          unfold consideredPairs
          rw [List.zip_cons_cons, List.takeWhile_cons_of_pos (by simpa using hlen)]
        rw [hcons] at h ⊢
        obtain ⟨e1, e2⟩ := h (i, l) List.mem_cons_self
        dsimp only at e1 e2
        have ih := ih ls
        rw [if_neg (show ¬ (i.length < 5 ∨ ((l :: (ls ++ [[]])).headD []).length < 5) by rw [List.headD_cons]; omega), List.headD_cons, List.tail_cons, e1, Outcome.bind_done, e2, Outcome.bind_done]
        by_cases hsz : (img (idir ++ i)).width = (img (ldir ++ l)).width ∧
            (img (idir ++ i)).height = (img (ldir ++ l)).height
        · rw [if_neg (by tauto), ih _ _ fun p hp => h p (List.mem_cons_of_mem _ hp)]
          have hm : matchingPairs img idir ldir ((i, l) :: consideredPairs is ls) =
              (i, l) :: matchingPairs img idir ldir (consideredPairs is ls) := by
            unfold matchingPairs
            rw [List.filter_cons_of_pos (by simpa using hsz)]
          rw [hm, List.flatMap_cons, List.length_cons, List.append_assoc]
          congr 2
          omega
        · rw [if_pos (by tauto), ih _ _ fun p hp => h p (List.mem_cons_of_mem _ hp)]
          have hm : matchingPairs img idir ldir ((i, l) :: consideredPairs is ls) =
              matchingPairs img idir ldir (consideredPairs is ls) := by
            unfold matchingPairs
            rw [List.filter_cons_of_neg (by simpa using hsz)]
          rw [hm]
      · rw [if_pos (show i.length < 5 ∨ ((l :: (ls ++ [[]])).headD []).length < 5 by rw [List.headD_cons]; omega)]
        have : consideredPairs (i :: is) (l :: ls) = [] := by
          unfold consideredPairs
          rw [List.zip_cons_cons, List.takeWhile_cons_of_neg (by simpa using hlen)]
        rw [this]
        simp [matchingPairs]

/-- A directory name with its slash. -/
theorem directory_slash (d : Str) : directory (d ++ ['/']) = .done (d ++ ['/']) := by
  unfold directory
  rw [List.getLast?_append]
  rfl

/-- C68: loading two lists adds, in the order of the lists and behind what was there before, an image and a label
for each pair of files of the same size, and returns their number; pairs of different sizes are left out, and the
lists end at the first name of less than five characters. -/
theorem C68_load (texts : Str → Option Str) (fs : Files) (st : Stream) (ilist llist idir ldir : Str)
    (is ls : List Str) (hi : ∀ l ∈ is, '\n' ∉ l) (hl : ∀ l ∈ ls, '\n' ∉ l)
    (h1 : texts ilist = some (listText is)) (h2 : texts llist = some (listText ls)) (img : Str → Tensor ℚ)
    (himg : ∀ p ∈ consideredPairs is ls, imageTensor fs (idir ++ ['/'] ++ p.1) = .done (img (idir ++ ['/'] ++ p.1)) ∧
      imageTensor fs (ldir ++ ['/'] ++ p.2) = .done (img (ldir ++ ['/'] ++ p.2))) :
    loadFiles texts fs st ilist (idir ++ ['/']) llist (ldir ++ ['/']) =
      .done (2 * (matchingPairs img (idir ++ ['/']) (ldir ++ ['/']) (consideredPairs is ls)).length,
        ⟨st.tensors ++ (matchingPairs img (idir ++ ['/']) (ldir ++ ['/']) (consideredPairs is ls)).flatMap
          (entriesOf img st.colors.length (idir ++ ['/']) (ldir ++ ['/'])), st.colors⟩) := by
  unfold loadFiles
  rw [directory_slash, Outcome.bind_done, directory_slash, Outcome.bind_done, h1, h2]
  dsimp only
  unfold listText
  rw [linesOf_unlines hi, linesOf_unlines hl, loadLoop_eq fs img _ _ _ _ _ _ _ himg]
  simp

/-- C68: a directory may be given with or without its slash. -/
theorem C68_directory (texts : Str → Option Str) (fs : Files) (st : Stream) (ilist llist idir ldir : Str)
    (h1 : idir ≠ []) (h2 : ldir ≠ []) (h3 : idir.getLast? ≠ some '/') (h4 : ldir.getLast? ≠ some '/') :
    loadFiles texts fs st ilist idir llist ldir =
      loadFiles texts fs st ilist (idir ++ ['/']) llist (ldir ++ ['/']) := by
  have key : ∀ d : Str, d ≠ [] → d.getLast? ≠ some '/' → directory d = .done (d ++ ['/']) := by
    intro d hd hl
    unfold directory
    cases hg : d.getLast? with
    | none => exact absurd (List.getLast?_eq_none_iff.1 hg) hd
    | some c =>
      rw [hg] at hl
      dsimp only
      rw [if_pos]
      rintro rfl
      exact hl rfl
  unfold loadFiles
  rw [key idir h1 h3, key ldir h2 h4, directory_slash, directory_slash]

/-- C68: a description names the four parts, if none of them contains a semicolon. -/
theorem C68_descriptor (texts : Str → Option Str) (fs : Files) (colors : List Nat) (a b c d : Str)
    (hb : ';' ∉ b) (hc : ';' ∉ c) (hd : ';' ∉ d) :
    fromList texts fs ("list:".toList ++ a ++ ';' :: b ++ ';' :: c ++ ';' :: d) colors =
      some ((loadFiles texts fs ⟨[], colors⟩ a b c d).bind fun r => .done r.2) := by
  have : descriptor ("list:".toList ++ a ++ ';' :: b ++ ';' :: c ++ ';' :: d) = some (a, b, c, d) := by
    unfold descriptor
    have ht : ("list:".toList ++ a ++ ';' :: b ++ ';' :: c ++ ';' :: d).take 5 = "list:".toList := rfl
    rw [if_pos ht]
    have : ("list:".toList ++ a ++ ';' :: b ++ ';' :: c ++ ';' :: d).drop 5 = a ++ ';' :: b ++ ';' :: c ++ ';' :: d := rfl
    rw [this, splitLast_append _ hd, Option.bind_some]
    dsimp only
    rw [splitLast_append _ hc, Option.bind_some]
    dsimp only
    rw [splitLast_append _ hb]
    rfl
  unfold fromList loadFile
  rw [this]

/-- The streams that calls of `LoadFiles` can produce, whatever the files hold at the time of each call. -/
inductive ReachableStream (colors : List Nat) : Stream → Prop
  | new : ReachableStream colors ⟨[], colors⟩
  | load {st st' : Stream} (texts : Str → Option Str) (fs : Files) (il id ll ld : Str) (n : Nat) :
      ReachableStream colors st → loadFiles texts fs st il id ll ld = .done (n, st') → ReachableStream colors st'

/-- Image and label of a pair as the stream knows them. -/
def PairOk (classes : Nat) (p : Meta × Meta) : Prop :=
  p.1.width = p.2.width ∧ p.1.height = p.2.height ∧ p.2.maps = classes

theorem loadLoop_pairs (fs : Files) (classes : Nat) (idir ldir : Str) :
    ∀ (is ls : List Str) (tensors tensors' : List Meta) (count count' : Nat),
      loadLoop fs classes idir ldir is ls tensors count = .done (tensors', count') →
      ∃ ps : List (Meta × Meta), (∀ p ∈ ps, PairOk classes p) ∧
        tensors' = tensors ++ ps.flatMap (fun p => [p.1, p.2]) ∧ count' = count + 2 * ps.length := by
  intro is
  induction is with
  | nil =>
    intro ls tensors tensors' count count' h
    rw [loadLoop] at h
    cases h
    exact ⟨[], by simp, by simp, by simp⟩
  | cons i is ih =>
    intro ls tensors tensors' count count' h
    rw [loadLoop] at h
    split at h
    · cases h
      exact ⟨[], by simp, by simp, by simp⟩
    · cases hi : imageTensor fs (idir ++ i) with
      | fatal => rw [hi] at h; cases h
      | undefined => rw [hi] at h; cases h
      | done image =>
        rw [hi, Outcome.bind_done] at h
        cases hl : imageTensor fs (ldir ++ ls.headD []) with
        | fatal => rw [hl] at h; cases h
        | undefined => rw [hl] at h; cases h
        | done label =>
          rw [hl, Outcome.bind_done] at h
          split at h
          · exact ih _ _ _ _ _ h
          · next hsz =>
            obtain ⟨ps, h1, h2, h3⟩ := ih _ _ _ _ _ h
            refine ⟨(⟨idir ++ i, image.width, image.height, image.maps, image.samples⟩,
              ⟨ldir ++ ls.headD [], label.width, label.height, classes, label.samples⟩) :: ps, ?_, ?_, ?_⟩
            · intro p hp
              rcases List.mem_cons.1 hp with rfl | hp
              · exact ⟨by dsimp only; by_contra hne; exact hsz (Or.inl hne),
                  by dsimp only; by_contra hne; exact hsz (Or.inr hne), rfl⟩
              · exact h1 p hp
            · rw [h2, List.flatMap_cons, List.append_assoc]
            · rw [h3, List.length_cons]; omega

theorem flatMap_pair {ps : List (Meta × Meta)} (k : Nat) :
    (ps.flatMap fun p => [p.1, p.2])[2 * k]? = (ps[k]?).map (·.1) ∧
    (ps.flatMap fun p => [p.1, p.2])[2 * k + 1]? = (ps[k]?).map (·.2) := by
  induction ps generalizing k with
  | nil => simp
  | cons p ps ih =>
    cases k with
    | zero => exact ⟨rfl, rfl⟩
    | succ k =>
      rw [List.flatMap_cons]
      exact ih k

/-- C68: after any history of loads, also with files that change in between, the tensors with even indices are the
images and the following ones their labels, of the same size and with one map per class. -/
theorem C68_pairs (colors : List Nat) (st : Stream) (h : ReachableStream colors st) :
    st.colors = colors ∧ st.count % 2 = 0 ∧ ∀ k, 2 * k < st.count →
      st.width (2 * k) = st.width (2 * k + 1) ∧ st.height (2 * k) = st.height (2 * k + 1) ∧
      st.maps (2 * k + 1) = colors.length := by
  have key : st.colors = colors ∧ ∃ ps : List (Meta × Meta), (∀ p ∈ ps, PairOk colors.length p) ∧
      st.tensors = ps.flatMap fun p => [p.1, p.2] := by
    induction h with
    | new => exact ⟨rfl, [], by simp, rfl⟩
    | @load st st' texts fs il id ll ld n _ hload ih =>
      obtain ⟨hc, ps, h1, h2⟩ := ih
      unfold loadFiles at hload
      cases e1 : directory id with
      | fatal => rw [e1] at hload; cases hload
      | undefined => rw [e1] at hload; cases hload
      | done id' =>
        rw [e1, Outcome.bind_done] at hload
        cases e2 : directory ld with
        | fatal => rw [e2] at hload; cases hload
        | undefined => rw [e2] at hload; cases hload
        | done ld' =>
          rw [e2, Outcome.bind_done] at hload
          split at hload
          · next is ls _ _ =>
            cases e3 : loadLoop fs st.colors.length id' ld' (NetConfig.linesOf is) (NetConfig.linesOf ls)
              st.tensors 0 with
            | fatal => rw [e3] at hload; cases hload
            | undefined => rw [e3] at hload; cases hload
            | done r =>
              rw [e3, Outcome.bind_done] at hload
              obtain ⟨qs, q1, q2, -⟩ := loadLoop_pairs _ _ _ _ _ _ _ _ _ _ e3
              have hload := Outcome.done.inj hload
              obtain ⟨-, rfl⟩ := Prod.mk.inj hload
              refine ⟨hc, ps ++ qs, ?_, ?_⟩
              · intro p hp
                rcases List.mem_append.1 hp with hp | hp
                · exact h1 p hp
                · rw [hc] at q1; exact q1 p hp
              · rw [List.flatMap_append, ← h2]; exact q2
          · cases hload
  obtain ⟨hc, ps, h1, h2⟩ := key
  have hlen : st.count = 2 * ps.length := by
    unfold Stream.count
    rw [h2, List.length_flatMap]
    simp [Nat.mul_comm]
  refine ⟨hc, by omega, fun k hk => ?_⟩
  have hk' : k < ps.length := by omega
  obtain ⟨g1, g2⟩ := flatMap_pair (ps := ps) k
  rw [List.getElem?_eq_getElem hk', Option.map_some, ← h2] at g1 g2
  have := h1 _ (List.getElem_mem hk')
  unfold Stream.width Stream.height Stream.maps
  rw [g1, g2]
  exact this

/-- The pixels of a label image: in a grey image all three colours are the grey value. -/
def colourOf (p : Pixels) (x y : Nat) : Option Nat :=
  if p.channels = 3 then
    match sampleAt p x y 0, sampleAt p x y 1, sampleAt p x y 2 with
    | some r, some g, some b => some (r * 65536 + g * 256 + b)
    | _, _, _ => none
  else (sampleAt p x y 0).map fun v => v * 65536 + v * 256 + v

theorem fromUchar_inj {j k : Nat} (hj : j < 256) (hk : k < 256) (h : fromUchar j = fromUchar k) : j = k :=
  C67_byte_values.2 j hj k hk h

theorem colour_iff {r g b k : Nat} (hr : r < 256) (hg : g < 256) (hb : b < 256) :
    ((fromUchar r, fromUchar g, fromUchar b) = colour k) ↔ r * 65536 + g * 256 + b = k % 16777216 := by
  unfold colour
  constructor
  · intro h
    have h1 := fromUchar_inj hr (Nat.mod_lt _ (by omega)) (Prod.mk.inj h).1
    have h2 := fromUchar_inj hg (Nat.mod_lt _ (by omega)) (Prod.mk.inj (Prod.mk.inj h).2).1
    have h3 := fromUchar_inj hb (Nat.mod_lt _ (by omega)) (Prod.mk.inj (Prod.mk.inj h).2).2
    omega
  · intro h
    have h1 : r = k / 65536 % 256 := by omega
    have h2 : g = k / 256 % 256 := by omega
    have h3 : b = k % 256 := by omega
    rw [← h1, ← h2, ← h3]

theorem sampleAt_lt {p : Pixels} (hp : p.Ok 8) {x y c v : Nat} (h : sampleAt p x y c = some v) : v < 256 :=
  hp.range v (List.mem_of_getElem? h)

theorem colourAt_iff {p : Pixels} {rgb : Tensor ℚ} (hp : p.Ok 8) (hs : ShowsImage fromUchar p rgb)
    (hc : p.channels = 3 ∨ p.channels = 1) {x y : Nat} (hx : x < p.width) (hy : y < p.height) (k : Nat) :
    colourAt rgb x y = colour k ↔ colourOf p x y = some (k % 16777216) := by
  unfold colourAt colourOf
  rw [hs.maps]
  rcases hc with hc | hc
  · rw [if_pos hc, if_pos hc]
    obtain ⟨r, r1, r2⟩ := hs.value x y 0 hx hy (by omega)
    obtain ⟨g, g1, g2⟩ := hs.value x y 1 hx hy (by omega)
    obtain ⟨b, b1, b2⟩ := hs.value x y 2 hx hy (by omega)
    rw [val_of_get r2, val_of_get g2, val_of_get b2, r1, g1, b1,
      colour_iff (sampleAt_lt hp r1) (sampleAt_lt hp g1) (sampleAt_lt hp b1)]
    simp
  · rw [if_neg (by omega), if_neg (by omega)]
    obtain ⟨r, r1, r2⟩ := hs.value x y 0 hx hy (by omega)
    rw [val_of_get r2, r1, colour_iff (sampleAt_lt hp r1) (sampleAt_lt hp r1) (sampleAt_lt hp r1)]
    simp

/-- C68, in part: copying a label (odd index) of several classes writes to the sample of the target, in every map, 1
where the pixel has exactly the colour of the class and 0 elsewhere, also outside the label image, and leaves all
other samples alone.  What is missing is the return value, see `C68_copy_undefined`. -/
theorem C68_copy_label_partial (near : ℚ × ℚ × ℚ → ℚ × ℚ × ℚ → ℚ) (fs : Files) (st : Stream) (index j : Nat)
    (m : Meta) (hm : st.tensors[index]? = some m) (hodd : index % 2 = 1) (hn : st.colors.length ≠ 1) (p : Pixels)
    (hp : p.Ok 8) (hc : p.channels = 3 ∨ p.channels = 1) (rgb : Tensor ℚ) (hf : imageTensor fs m.filename = .done rgb)
    (hs : ShowsImage fromUchar p rgb) (target : Tensor ℚ) (ht : target.WF) (hj : j < target.samples)
    (hm' : target.maps = st.colors.length) (hw : p.width ≤ target.width) (hh : p.height ≤ target.height) :
    ∃ u, copyEnd near fs st index 0 target j = .done (none, u) ∧ Sh target u ∧ u.WF ∧
      ∀ x y c s k, target.InRange x y c s → st.colors[c]? = some k → u.get x y c s =
        if s = j then some (if x < p.width ∧ y < p.height ∧ colourOf p x y = some (k % 16777216) then 1 else 0)
        else target.get x y c s := by
  obtain ⟨t, e1, s1, w1, g1⟩ := hardLabels_spec st.colors hs.wf (by rw [hs.samples]; exact Nat.one_pos)
    (by rw [hs.maps]; exact hc)
  obtain ⟨q1, q2, q3, q4⟩ := s1
  have d1 : t.samples = 1 := q1.symm
  have d2 : t.width = p.width := by rw [← q2]; exact hs.width
  have d3 : t.height = p.height := by rw [← q3]; exact hs.height
  have d4 : t.maps = st.colors.length := q4.symm
  obtain ⟨u, e2, s2, w2, g2⟩ := copySample_ok w1 ht (i := 0) (j := j) (by omega) (by omega) hj (by omega) (by omega)
  refine ⟨u, ?_, s2, w2, ?_⟩
  · unfold copyEnd tensorAt
    rw [hm]
    dsimp only
    rw [hf, Outcome.bind_done, if_pos hodd]
    split
    · next heq => rw [heq] at hn; exact absurd rfl hn
    · rw [e1, Outcome.bind_done, e2]; rfl
  · intro x y c s k hin hk
    rw [g2 x y c s hin]
    by_cases hsj : s = j
    · rw [if_pos hsj, if_pos hsj, d2, d3]
      by_cases hxy : x < p.width ∧ y < p.height
      · obtain ⟨hx, hy⟩ := hxy
        rw [if_pos ⟨hx, hy⟩, g1 x y c (by rw [hs.width]; exact hx) (by rw [hs.height]; exact hy)
          (by rw [← hm']; exact hin.2.2.1)]
        have : st.colors.getD c 0 = k := by rw [List.getD_eq_getElem?_getD, hk]; rfl
        rw [this]
        have hiff := colourAt_iff hp hs hc hx hy k
        by_cases h : colourAt rgb x y = colour k
        · rw [if_pos h, if_pos ⟨hx, hy, hiff.1 h⟩]
        · rw [if_neg h, if_neg fun h' => h (hiff.2 h'.2.2)]
      · rw [if_neg hxy, if_neg fun h => hxy ⟨h.1, h.2.1⟩]
    · rw [if_neg hsj, if_neg hsj]

/-- C68, in part: copying an image (even index) writes its values and zeros around it. -/
theorem C68_copy_image_partial (near : ℚ × ℚ × ℚ → ℚ × ℚ × ℚ → ℚ) (fs : Files) (st : Stream) (index j : Nat)
    (m : Meta) (hm : st.tensors[index]? = some m) (heven : index % 2 = 0) (conv : Nat → ℚ) (p : Pixels) (rgb : Tensor ℚ)
    (hf : imageTensor fs m.filename = .done rgb) (hs : ShowsImage conv p rgb) (target : Tensor ℚ) (ht : target.WF)
    (hj : j < target.samples) (hm' : target.maps = p.channels) (hw : p.width ≤ target.width)
    (hh : p.height ≤ target.height) :
    ∃ u, copyEnd near fs st index 0 target j = .done (none, u) ∧ Sh target u ∧ u.WF ∧
      ∀ x y c s, target.InRange x y c s → u.get x y c s =
        if s = j then (if x < p.width ∧ y < p.height then (sampleAt p x y c).map conv else some 0)
        else target.get x y c s := by
  obtain ⟨u, e2, s2, w2, g2⟩ := copySample_ok hs.wf ht (i := 0) (j := j) (by rw [hs.maps]; omega)
    (by rw [hs.samples]; omega) hj (by rw [hs.width]; omega) (by rw [hs.height]; omega)
  refine ⟨u, ?_, s2, w2, ?_⟩
  · unfold copyEnd tensorAt
    rw [hm]
    dsimp only
    rw [hf, Outcome.bind_done, if_neg (by omega), Outcome.bind_done, e2]
    rfl
  · intro x y c s hin
    rw [g2 x y c s hin, hs.width, hs.height]
    by_cases hsj : s = j
    · rw [if_pos hsj, if_pos hsj]
      by_cases hxy : x < p.width ∧ y < p.height
      · obtain ⟨v, v1, v2⟩ := hs.value x y c hxy.1 hxy.2 (by rw [← hm']; exact hin.2.2.1)
        rw [if_pos hxy, if_pos hxy, v2, v1]
        rfl
      · rw [if_neg hxy, if_neg hxy]
    · rw [if_neg hsj, if_neg hsj]

/-- C68: the classes of a pixel exclude each other if the colours differ. -/
theorem C68_exclusive (p : Pixels) (x y c d k l : Nat) (colors : List Nat) (hd : (colors.map (· % 16777216)).Nodup)
    (hc : colors[c]? = some k) (hd' : colors[d]? = some l) (h1 : colourOf p x y = some (k % 16777216))
    (h2 : colourOf p x y = some (l % 16777216)) : c = d := by
  rw [h1] at h2
  have e := Option.some.inj h2
  have g1 : (colors.map (· % 16777216))[c]? = some (k % 16777216) := by rw [List.getElem?_map, hc]; rfl
  have g2 : (colors.map (· % 16777216))[d]? = some (k % 16777216) := by rw [List.getElem?_map, hd', e]; rfl
  have hl : c < (colors.map (· % 16777216)).length := (List.getElem?_eq_some_iff.1 g1).1
  exact (List.nodup_iff_injective_get.1 hd |> fun hinj => by
    have hl' : d < (colors.map (· % 16777216)).length := (List.getElem?_eq_some_iff.1 g2).1
    have := @hinj ⟨c, hl⟩ ⟨d, hl'⟩ (by
      rw [List.get_eq_getElem, List.get_eq_getElem]
      rw [List.getElem?_eq_getElem hl] at g1
      rw [List.getElem?_eq_getElem hl'] at g2
      exact (Option.some.inj g1).trans (Option.some.inj g2).symm)
    exact congrArg Fin.val this)

/-- C68: an index beyond the end is refused and changes nothing. -/
theorem C68_invalid_index (near : ℚ × ℚ × ℚ → ℚ × ℚ × ℚ → ℚ) (fs : Files) (st : Stream) (index i j : Nat)
    (target : Tensor ℚ) (h : st.count ≤ index) :
    copySample near fs st index i target j = .done (false, target) ∧ st.width index = 0 ∧ st.height index = 0 ∧
      st.maps index = 0 ∧ st.samples index = 0 := by
  have : st.tensors[index]? = none := List.getElem?_eq_none h
  unfold ListStream.copySample copyEnd Stream.width Stream.height Stream.maps Stream.samples
  rw [this]
  exact ⟨rfl, rfl, rfl, rfl, rfl⟩

/-- C68, refuted: for every valid index, the function never returns a value: it throws or its behaviour is
undefined. -/
theorem C68_copy_undefined (near : ℚ × ℚ × ℚ → ℚ × ℚ × ℚ → ℚ) (fs : Files) (st : Stream) (index i j : Nat)
    (target : Tensor ℚ) (h : index < st.count) (r : Bool × Tensor ℚ) :
    copySample near fs st index i target j ≠ .done r := by
  unfold ListStream.copySample copyEnd
  rw [List.getElem?_eq_getElem h]
  dsimp only
  cases tensorAt near fs st st.tensors[index] index with
  | fatal => simp
  | undefined => simp
  | done t =>
    rw [Outcome.bind_done]
    cases Tensor.copySample t i target j <;> simp

/-- C68, refuted: label images with four channels (for example RGB with transparency) or two are accepted when the
lists are loaded, but end the program when the label is copied. -/
theorem C68_alpha_fatal (near : ℚ × ℚ × ℚ → ℚ × ℚ × ℚ → ℚ) (fs : Files) (st : Stream) (index i j : Nat)
    (m : Meta) (hm : st.tensors[index]? = some m) (hodd : index % 2 = 1) (conv : Nat → ℚ) (p : Pixels)
    (h1 : p.channels ≠ 1) (h3 : p.channels ≠ 3) (hw : 0 < p.width) (hh : 0 < p.height) (rgb : Tensor ℚ)
    (hf : imageTensor fs m.filename = .done rgb) (hs : ShowsImage conv p rgb) (target : Tensor ℚ) :
    copySample near fs st index i target j = .fatal := by
  have hp : ∀ x y, pixelColour rgb x y = .fatal := by
    intro x y
    unfold pixelColour
    rw [if_neg (by rw [hs.maps]; exact h3), if_neg (by rw [hs.maps]; exact h1)]
  have h : tensorAt near fs st m index = .fatal := by
    unfold tensorAt
    rw [hf, Outcome.bind_done, if_pos hodd]
    split
    · exact forO_fatal (by rw [hs.height]; exact hh) (forO_fatal (by rw [hs.width]; exact hw) (by rw [hp]; rfl))
    · exact forO_fatal (by rw [hs.height]; exact hh) (forO_fatal (by rw [hs.width]; exact hw) (by rw [hp]; rfl))
  unfold ListStream.copySample copyEnd
  rw [hm]
  dsimp only
  rw [h]
  rfl

/-- C68, refuted: a name of less than five characters, also an empty line, ends the import: whatever is listed behind
it is dropped without a report. -/
theorem C68_short_name_ends (is ls js : List Str) (i : Str) (hi : i.length < 5) :
    consideredPairs (is ++ i :: js) ls = consideredPairs is ls := by
  unfold consideredPairs
  induction is generalizing ls with
  | nil =>
    cases ls with
    | nil => rfl
    | cons l ls =>
      rw [List.nil_append, List.zip_cons_cons, List.takeWhile_cons_of_neg (by simp; omega)]
      rfl
  | cons a is ih =>
    cases ls with
    | nil => rfl
    | cons l ls =>
      rw [List.cons_append, List.zip_cons_cons, List.zip_cons_cons, List.takeWhile_cons, List.takeWhile_cons, ih]

/-- C68, refuted: a pair of missing JPEG files is not reported but counted as an image and a label without pixels. -/
theorem C68_missing_files (fs : Files) (name : Str) (h : JpgName name) (hf : fs name = none) :
    imageTensor fs name = .done ⟨0, 0, 0, 0, []⟩ := (C67_silent_load fs name _).2.2 h hf

/-- C68, refuted: in label images with 16 bits per channel the colours of most classes are not recognised: the pixel
below has the colour 010101, and is given none of the classes. -/
theorem C68_sixteen_bit_label (near : ℚ × ℚ × ℚ → ℚ × ℚ × ℚ → ℚ) :
    ∃ (fs : Files) (st : Stream), fs "a.png".toList = some (.png 16 false ⟨1, 1, 3, [257, 257, 257]⟩) ∧
      st = ⟨[⟨"i.png".toList, 1, 1, 3, 1⟩, ⟨"a.png".toList, 1, 1, 2, 1⟩], [0x010101, 0]⟩ ∧
      copyEnd near fs st 1 0 ⟨1, 1, 1, 2, [7, 7]⟩ 0 = .done (none, ⟨1, 1, 1, 2, [0, 0]⟩) := by
  refine ⟨fun _ => some (.png 16 false ⟨1, 1, 3, [257, 257, 257]⟩), _, rfl, rfl, ?_⟩
  have : ∀ near, copyEnd near (fun _ => some (.png 16 false ⟨1, 1, 3, [257, 257, 257]⟩))
      ⟨[⟨"i.png".toList, 1, 1, 3, 1⟩, ⟨"a.png".toList, 1, 1, 2, 1⟩], [0x010101, 0]⟩ 1 0 ⟨1, 1, 1, 2, [7, 7]⟩ 0 =
      copyEnd (fun _ _ => 0) (fun _ => some (.png 16 false ⟨1, 1, 3, [257, 257, 257]⟩))
      ⟨[⟨"i.png".toList, 1, 1, 3, 1⟩, ⟨"a.png".toList, 1, 1, 2, 1⟩], [0x010101, 0]⟩ 1 0 ⟨1, 1, 1, 2, [7, 7]⟩ 0 :=
    fun _ => rfl
  rw [this]
  decide +kernel

/-- The same pixel with 8 bits is recognised. -/
example : copyEnd (fun _ _ => 0) (fun _ => some (.png 8 false ⟨1, 1, 3, [1, 1, 1]⟩))
    ⟨[⟨"i.png".toList, 1, 1, 3, 1⟩, ⟨"a.png".toList, 1, 1, 2, 1⟩], [0x010101, 0]⟩ 1 0 ⟨1, 1, 1, 2, [7, 7]⟩ 0 =
    .done (none, ⟨1, 1, 1, 2, [1, 0]⟩) := by decide +kernel

/-- Lists and files the theorems apply to: two pairs, one of them with different sizes. -/
example : (loadFiles (fun _ => some "aa.png\nbb.png\n".toList)
    (fun n => if n = "i/bb.png".toList then some (.png 8 false ⟨2, 1, 1, [5, 6]⟩)
      else some (.png 8 false ⟨1, 1, 1, [5]⟩)) ⟨[], [1, 2]⟩ "x".toList "i".toList "y".toList "l/".toList =
    .done (2, ⟨[⟨"i/aa.png".toList, 1, 1, 1, 1⟩, ⟨"l/aa.png".toList, 1, 1, 2, 1⟩], [1, 2]⟩)) := by decide +kernel

/-- C68: the sizes the stream reports: those of the `k`-th matching pair of files, with one map per class for the label. -/
theorem C68_sizes (texts : Str → Option Str) (fs : Files) (colors : List Nat) (ilist llist idir ldir : Str)
    (is ls : List Str) (hi : ∀ l ∈ is, '\n' ∉ l) (hl : ∀ l ∈ ls, '\n' ∉ l)
    (h1 : texts ilist = some (listText is)) (h2 : texts llist = some (listText ls)) (img : Str → Tensor ℚ)
    (himg : ∀ p ∈ consideredPairs is ls, imageTensor fs (idir ++ ['/'] ++ p.1) = .done (img (idir ++ ['/'] ++ p.1)) ∧
      imageTensor fs (ldir ++ ['/'] ++ p.2) = .done (img (ldir ++ ['/'] ++ p.2))) :
    ∃ st, loadFiles texts fs ⟨[], colors⟩ ilist (idir ++ ['/']) llist (ldir ++ ['/']) = .done (st.count, st) ∧
      ∀ k p, (matchingPairs img (idir ++ ['/']) (ldir ++ ['/']) (consideredPairs is ls))[k]? = some p →
        (st.samples (2 * k) = (img (idir ++ ['/'] ++ p.1)).samples ∧ st.width (2 * k) = (img (idir ++ ['/'] ++ p.1)).width ∧
          st.height (2 * k) = (img (idir ++ ['/'] ++ p.1)).height ∧ st.maps (2 * k) = (img (idir ++ ['/'] ++ p.1)).maps) ∧
        st.samples (2 * k + 1) = (img (ldir ++ ['/'] ++ p.2)).samples ∧
        st.width (2 * k + 1) = (img (ldir ++ ['/'] ++ p.2)).width ∧
        st.height (2 * k + 1) = (img (ldir ++ ['/'] ++ p.2)).height ∧ st.maps (2 * k + 1) = colors.length := by
  have h := C68_load texts fs ⟨[], colors⟩ ilist llist idir ldir is ls hi hl h1 h2 img himg
  generalize matchingPairs img (idir ++ ['/']) (ldir ++ ['/']) (consideredPairs is ls) = ps at h ⊢
  have hget : ∀ (ps : List (Str × Str)) (k : Nat) (p : Str × Str), ps[k]? = some p →
      (ps.flatMap (entriesOf img colors.length (idir ++ ['/']) (ldir ++ ['/'])))[2 * k]? =
        (entriesOf img colors.length (idir ++ ['/']) (ldir ++ ['/']) p)[0]? ∧
      (ps.flatMap (entriesOf img colors.length (idir ++ ['/']) (ldir ++ ['/'])))[2 * k + 1]? =
        (entriesOf img colors.length (idir ++ ['/']) (ldir ++ ['/']) p)[1]? := by
    intro ps
    induction ps with
    | nil => intro k p h; simp at h
    | cons q ps ih =>
      intro k p hk
      rw [List.flatMap_cons]
      cases k with
      | zero =>
        obtain rfl : q = p := by simpa using hk
        exact ⟨rfl, rfl⟩
      | succ k => exact ih k p (by simpa using hk)
  refine ⟨⟨ps.flatMap (entriesOf img colors.length (idir ++ ['/']) (ldir ++ ['/'])), colors⟩, h.trans ?_, fun k p hk => ?_⟩
  · congr 2
    show 2 * ps.length = (ps.flatMap _).length
    clear h hget
    induction ps with
    | nil => rfl
    | cons q ps ih => rw [List.flatMap_cons, List.length_append, ← ih]; simp [entriesOf]; omega
  · obtain ⟨g1, g2⟩ := hget ps k p hk
    simp only [Stream.samples, Stream.width, Stream.height, Stream.maps, g1, g2, entriesOf]
    exact ⟨⟨rfl, rfl, rfl, rfl⟩, rfl, rfl, rfl, rfl⟩

end CN24.Props
