import Verif.Model.KittiFiles
import Verif.Spec.KittiFiles
import Verif.Proof.MatrixReport

/-!
C100: the names of the KITTI files.
-/

namespace CN24.KittiFiles
open CN24 CN24.Config CN24.MatrixReport CN24.KittiName

/-- The names a user asks for. -/
def ask (source : Str) : Role → Category → Int → Str
  | .image, c, n => (create source).getImage c n
  | .testImage, c, n => (create source).getImage c n true
  | .road, c, n => (create source).getRoadGroundtruth c n
  | .lane, c, n => (create source).getLaneGroundtruth c n

/-- How the published archive calls a category. -/
def called : Category → Str
  | .um => "um".toList
  | .umm => "umm".toList
  | .uu => "uu".toList
  | .urban => "urban".toList

/-! ### The parts of a name -/

theorem words_cons {c : Char} (h : c ≠ '_') (s w : Str) (ws : List Str) (e : words s = w :: ws) :
    words (c :: s) = (c :: w) :: ws := by
  rw [words, if_neg h, e]

theorem words_us (s : Str) : words ('_' :: s) = [] :: words s := by rw [words, if_pos rfl]

theorem words_plain : ∀ s : Str, '_' ∉ s → words s = [s]
  | [], _ => rfl
  | c :: s, h => words_cons (fun e => h (by simp [e])) s s [] (words_plain s fun hm => h (by simp [hm]))

theorem words_append : ∀ (w s : Str), '_' ∉ w → words (w ++ '_' :: s) = w :: words s
  | [], s, _ => words_us s
  | c :: w, s, h => words_cons (fun e => h (by simp [e])) _ _ _ (words_append w s fun hm => h (by simp [hm]))

theorem splitPath_append (dir name : Str) (h : '/' ∉ name) : splitPath (dir ++ '/' :: name) = (dir ++ ['/'], name) := by
  unfold splitPath
  have hn : ∀ x ∈ name.reverse, (decide (x ≠ '/')) = true := fun x hx => by
    have : x ∈ name := by simpa using hx
    simp only [decide_eq_true_eq]
    rintro rfl
    exact h this
  simp only [List.reverse_append, List.reverse_cons, List.append_assoc]
  rw [List.dropWhile_append_of_pos hn, List.takeWhile_append_of_pos hn]
  simp

theorem integer_nat (n : Nat) : integer (n : Int) = digitsOf n := by
  unfold integer
  rw [if_neg (by omega), Int.natAbs_natCast]

theorem padded_digit (n : Nat) : ∀ c ∈ padded (n : Int), c.isDigit = true := by
  intro c hc
  unfold padded at hc
  rw [integer_nat] at hc
  rcases List.mem_append.1 hc with h | h
  · rw [List.eq_of_mem_replicate h]; decide
  · exact digitsOf_isDigit h

theorem padded_length (n : Int) : 6 ≤ (padded n).length := by
  unfold padded
  rw [List.length_append, List.length_replicate]
  omega

theorem value_zeros (k : Nat) (s : Str) : value (List.replicate k '0' ++ s) = value s := by
  unfold value
  rw [List.foldl_append]
  congr 1
  induction k with
  | zero => rfl
  | succ k ih => rw [List.replicate_succ, List.foldl_cons]; exact ih

theorem value_padded (n : Nat) : value (padded (n : Int)) = n := by
  unfold padded
  rw [value_zeros, integer_nat]
  have h := decimal_digitsOf n
  unfold ReadReport.decimal at h
  split at h
  · exact Option.some.inj h
  · cases h

theorem number_padded (n : Nat) : number (padded (n : Int) ++ ".png".toList) = some n := by
  unfold number
  have h := padded_digit n
  rw [List.takeWhile_append_of_pos h, List.dropWhile_append_of_pos h]
  have e1 : (".png".toList).takeWhile Char.isDigit = [] := by decide
  have e2 : (".png".toList).dropWhile Char.isDigit = ".png".toList := by decide
  simp only [e1, e2, List.append_nil]
  rw [if_pos ⟨padded_length n, trivial⟩, value_padded]

theorem integer_chars (n : Int) : ∀ c ∈ integer n, c = '-' ∨ c.isDigit = true := by
  intro c hc
  unfold integer at hc
  split at hc
  · rcases List.mem_cons.1 hc with h | h
    · exact Or.inl h
    · exact Or.inr (digitsOf_isDigit h)
  · exact Or.inr (digitsOf_isDigit hc)

theorem padded_chars (n : Int) : ∀ c ∈ padded n, c = '-' ∨ c.isDigit = true := by
  intro c hc
  rcases List.mem_append.1 hc with h | h
  · right; rw [List.eq_of_mem_replicate h]; decide
  · exact integer_chars n c h

theorem tail_chars (n : Int) (c : Char) (h1 : c ≠ '-') (h2 : c.isDigit = false) (h3 : c ∉ ".png".toList) :
    c ∉ padded n ++ ".png".toList := by
  intro h
  rcases List.mem_append.1 h with h | h
  · rcases padded_chars n c h with h | h
    · exact h1 h
    · rw [h2] at h; cases h
  · exact h3 h

/-- The last word of a name. -/
def last (n : Int) : Str := padded n ++ ".png".toList

theorem no_us (n : Int) : '_' ∉ last n := tail_chars n '_' (by decide) (by decide) (by decide)
theorem no_slash (n : Int) : '/' ∉ last n := tail_chars n '/' (by decide) (by decide) (by decide)

theorem called_us (c : Category) : '_' ∉ called c := by cases c <;> decide
theorem called_slash (c : Category) : '/' ∉ called c := by cases c <;> decide

/-- The folder of a role without its last slash. -/
def stem : Role → Str
  | .image => "training/image_2".toList
  | .testImage => "testing/image_2".toList
  | .road => "training/gt_image_2".toList
  | .lane => "training/gt_image_2".toList

/-- The words between category and number. -/
def middle : Role → Str
  | .image => []
  | .testImage => []
  | .road => "road_".toList
  | .lane => "lane_".toList

theorem stem_folder (r : Role) : stem r ++ ['/'] = folder r := by cases r <;> decide

theorem ask_eq (source : Str) (r : Role) (c : Category) (n : Int) :
    ask source r c n = (source ++ stem r) ++ '/' :: (called c ++ '_' :: (middle r ++ last n)) := by
  have hp : filePrefix c = called c ++ ['_'] := by cases c <;> decide
  have hf := stem_folder r
  have key : ask source r c n = (source ++ folder r) ++ (filePrefix c ++ middle r ++ padded n ++ ".png".toList) := by
    cases r <;> rfl
  rw [key, hp, ← hf]
  simp only [last, List.append_assoc, List.cons_append, List.nil_append]

theorem middle_slash (r : Role) : '/' ∉ middle r := by cases r <;> decide

theorem split_ask (source : Str) (r : Role) (c : Category) (n : Int) :
    splitPath (ask source r c n) = (source ++ folder r, called c ++ '_' :: (middle r ++ last n)) := by
  rw [ask_eq, splitPath_append, ← stem_folder, List.append_assoc]
  intro h
  rcases List.mem_append.1 h with h | h
  · exact called_slash c h
  · rcases List.mem_cons.1 h with h | h
    · cases h
    · rcases List.mem_append.1 h with h | h
      · exact middle_slash r h
      · exact no_slash n h

theorem words_ask (r : Role) (c : Category) (n : Int) :
    words (called c ++ '_' :: (middle r ++ last n)) =
      called c :: (match r with
        | .image => [last n]
        | .testImage => [last n]
        | .road => ["road".toList, last n]
        | .lane => ["lane".toList, last n]) := by
  rw [words_append _ _ (called_us c)]
  congr 1
  cases r
  · exact words_plain _ (no_us n)
  · exact words_plain _ (no_us n)
  · exact (words_append "road".toList (last n) (by decide)).trans (congrArg _ (words_plain _ (no_us n)))
  · exact (words_append "lane".toList (last n) (by decide)).trans (congrArg _ (words_plain _ (no_us n)))

/-! ### The properties -/

/-- **C100 (the right file).**  For every folder of the data, role, category and frame number, the name returned by the
library is read, by the layout of the published archive, as the file of exactly this role, category and number: images and
ground truths with the same arguments belong to the same frame. -/
theorem C100_read (source : Str) (r : Role) (c : Category) (n : Nat) :
    KittiName.read source (ask source r c n) = some (r, called c, n) := by
  unfold KittiName.read
  rw [split_ask]
  dsimp only
  rw [words_ask]
  have hn : number (last n) = some n := number_padded n
  cases r
  · simp only [List.append_cancel_left_eq, if_true, hn, Option.map_some]
  · have h : folder .testImage ≠ folder .image := by decide
    simp only [List.append_cancel_left_eq, h, if_false, if_true, hn, Option.map_some]
  · simp only [List.append_cancel_left_eq, if_true, hn, Option.map_some]
  · have h : folder .lane = folder .road := by decide
    have h' : "lane".toList ≠ "road".toList := by decide
    simp only [List.append_cancel_left_eq, h, h', if_false, if_true, hn, Option.map_some]

theorem integer_inj {a b : Int} (h : integer a = integer b) : a = b := by
  have hd : ∀ n m : Nat, digitsOf n = digitsOf m → n = m := fun n m e => by
    have := congrArg digitsValue e
    rwa [digitsValue_digitsOf, digitsValue_digitsOf] at this
  have hm : ∀ n m : Nat, '-' :: digitsOf n ≠ digitsOf m := fun n m e => by
    have : '-' ∈ digitsOf m := e ▸ List.mem_cons_self
    exact absurd (digitsOf_isDigit this) (by decide)
  unfold integer at h
  split at h <;> split at h
  · have := hd _ _ (List.cons.inj h).2; omega
  · exact absurd h (hm _ _)
  · exact absurd h.symm (hm _ _)
  · have := hd _ _ h; omega

theorem padded_neg {a : Int} (h : a < 0) :
    padded a = List.replicate (6 - (integer a).length) '0' ++ '-' :: digitsOf a.natAbs := by
  unfold padded
  congr 1
  unfold integer
  rw [if_pos h]

theorem after_minus {a : Int} (h : a < 0) : (padded a).dropWhile Char.isDigit = integer a := by
  rw [padded_neg h, List.dropWhile_append_of_pos]
  · unfold integer
    rw [if_pos h, List.dropWhile_cons_of_neg (by decide)]
  · intro c hc
    rw [List.eq_of_mem_replicate hc]; decide

theorem padded_inj {a b : Int} (h : padded a = padded b) : a = b := by
  have hx : ∀ {a : Int} {m : Nat}, a < 0 → padded a ≠ padded (m : Int) := fun {a m} ha e => by
    have : '-' ∈ padded (m : Int) := by rw [← e, padded_neg ha]; simp
    exact absurd (padded_digit m _ this) (by decide)
  by_cases ha : a < 0 <;> by_cases hb : b < 0
  · apply integer_inj
    rw [← after_minus ha, ← after_minus hb, h]
  · obtain ⟨m, rfl⟩ : ∃ m : Nat, b = m := ⟨b.toNat, by omega⟩
    exact absurd h (hx ha)
  · obtain ⟨m, rfl⟩ : ∃ m : Nat, a = m := ⟨a.toNat, by omega⟩
    exact absurd h.symm (hx hb)
  · obtain ⟨m, rfl⟩ : ∃ m : Nat, a = m := ⟨a.toNat, by omega⟩
    obtain ⟨k, rfl⟩ : ∃ k : Nat, b = k := ⟨b.toNat, by omega⟩
    rw [← value_padded m, ← value_padded k, h]

theorem folder_inj {r r' : Role} (h : folder r = folder r') (hw : middle r = middle r') : r = r' := by
  cases r <;> cases r' <;> first | rfl | exact absurd h (by decide) | exact absurd hw (by decide)

/-- **C100 (no two requests share a file).**  Whatever the numbers, negative ones and those with more than six digits
included: two names below the same folder are equal only if role, category and number are. -/
theorem C100_distinct (source : Str) (r r' : Role) (c c' : Category) (n n' : Int)
    (h : ask source r c n = ask source r' c' n') : r = r' ∧ c = c' ∧ n = n' := by
  have hs := congrArg splitPath h
  rw [split_ask, split_ask] at hs
  have hf := List.append_cancel_left (congrArg Prod.fst hs)
  have hw := congrArg words (congrArg Prod.snd hs)
  simp only at hw
  rw [words_ask, words_ask] at hw
  have hc : c = c' := by
    have := (List.cons.inj hw).1
    cases c <;> cases c' <;> first | rfl | exact absurd this (by decide)
  have hrest := (List.cons.inj hw).2
  have hlast : ∀ {a b : Int}, last a = last b → a = b := fun e => padded_inj (List.append_cancel_right e)
  cases r <;> cases r' <;> simp only [List.cons.injEq, and_true, reduceCtorEq, and_false] at hrest <;>
    first
    | exact ⟨rfl, hc, hlast hrest⟩
    | exact ⟨rfl, hc, hlast hrest.2⟩
    | exact absurd hf (by decide)
    | exact absurd hrest.1 (by decide)

/-- **C100 (negative numbers).**  The name made for a negative number is no name of the archive: it is read as nothing. -/
theorem C100_negative (source : Str) (r : Role) (c : Category) (n : Int) (h : n < 0) :
    KittiName.read source (ask source r c n) = none := by
  have hn : number (last n) = none := by
    unfold number
    have hd : (last n).dropWhile Char.isDigit ≠ ".png".toList := by
      unfold last
      intro e
      have hz : ∀ c ∈ List.replicate (6 - (integer n).length) '0', c.isDigit = true := fun c hc => by
        rw [List.eq_of_mem_replicate hc]; decide
      rw [padded_neg h, List.append_assoc, List.dropWhile_append_of_pos hz, List.cons_append,
        List.dropWhile_cons_of_neg (by decide)] at e
      exact absurd (List.cons.inj e).1 (by decide)
    rw [if_neg fun hh => hd hh.2]
  unfold KittiName.read
  rw [split_ask]
  dsimp only
  rw [words_ask]
  cases r <;> simp only [hn, Option.map_none, ite_self]

/-- The names of the first frames, as they stand in the archive. -/
example : ask "data/".toList .image .umm 7 = "data/training/image_2/umm_000007.png".toList ∧
    ask "data/".toList .road .umm 7 = "data/training/gt_image_2/umm_road_000007.png".toList ∧
    ask "data/".toList .lane .um 95 = "data/training/gt_image_2/um_lane_000095.png".toList ∧
    ask "data/".toList .testImage .urban 1234567 = "data/testing/image_2/urban_1234567.png".toList ∧
    ask "".toList .image .uu (-1) = "training/image_2/uu_0000-1.png".toList := by decide +kernel

/-- A frame and its ground truth are read alike. -/
example : KittiName.read "k/".toList "k/training/gt_image_2/uu_road_000042.png".toList =
    some (.road, "uu".toList, 42) := by decide +kernel

end CN24.KittiFiles
