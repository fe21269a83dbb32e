import Verif.Model.Sampling
import Verif.Base.Writes
import Verif.Base.Nest
import Mathlib.Data.List.Perm.Basic

namespace CN24.Sampling
open CN24 CN24.Tensor

variable {R G : Type _}

/-! ### Sequence of training samples -/

/-- Numbers of the training samples requested. -/
def trained (l : List Request) : List Nat := (l.filter (fun r => !r.testing)).map (·.index)

/-- The sequence of training samples consists of permutations and the beginning of the current one. -/
structure Shuffled (n : Nat) (st : State R G) : Prop where
  perm : st.perm.Perm (List.range n)
  current : st.current < n ∨ (n = 0 ∧ st.current = 0)
  seq : ∃ chunks : List (List Nat), (∀ c ∈ chunks, c.Perm (List.range n)) ∧
    trained st.requests = chunks.flatten ++ st.perm.take st.current

theorem Shuffled.of_eq {n : Nat} {st st' : State R G} (h : Shuffled n st) (h1 : st'.perm = st.perm)
    (h2 : st'.current = st.current) (h3 : trained st'.requests = trained st.requests) :
    Shuffled n st' := by
  obtain ⟨a, b, c⟩ := h
  exact ⟨by rw [h1]; exact a, by rw [h2]; exact b, by rw [h3, h1, h2]; exact c⟩

theorem construct_shuffled (rnd : Random R G) (hrnd : ∀ g l, (rnd.shuffle g l).1.Perm l)
    (ds : Data R) (seed : G) (outs : Outputs R) :
    Shuffled ds.training (construct rnd ds seed outs) := by
  refine ⟨hrnd _ _, ?_, [], by simp, by simp [construct, redoPermutation, trained]⟩
  show 0 < ds.training ∨ (ds.training = 0 ∧ (0 : Nat) = 0)
  omega

/-- Effect of the choice of a sample on the sequence. -/
theorem select_shuffled {rnd : Random R G} (hrnd : ∀ g l, (rnd.shuffle g l).1.Perm l) {ds : Data R}
    {st : State R G} (h : Shuffled ds.training st) {e : Nat} {nw : Bool} {st' : State R G}
    (hsel : select rnd ds st = some (e, nw, st')) (pos : Nat) :
    Shuffled ds.training { st' with requests := st'.requests ++ [⟨st'.testing, pos, e⟩] } ∧
      st'.testing = st.testing := by
  unfold select at hsel
  by_cases ht : st.testing = true
  · rw [if_pos ht] at hsel
    have key : st'.perm = st.perm ∧ st'.current = st.current ∧ st'.requests = st.requests ∧
        st'.testing = st.testing := by
      split at hsel
      · simp only [Option.some.injEq, Prod.mk.injEq] at hsel
        rw [← hsel.2.2]; exact ⟨rfl, rfl, rfl, rfl⟩
      · simp only [Option.some.injEq, Prod.mk.injEq] at hsel
        rw [← hsel.2.2]; exact ⟨rfl, rfl, rfl, rfl⟩
    obtain ⟨k1, k2, k3, k4⟩ := key
    refine ⟨h.of_eq k1 k2 ?_, k4⟩
    simp [trained, k3, k4, ht]
  · rw [if_neg ht] at hsel
    simp only [Bool.not_eq_true] at ht
    rw [Option.map_eq_some_iff] at hsel
    obtain ⟨v, hv, hsel⟩ := hsel
    obtain ⟨hp, hc, chunks, hch, hseq⟩ := h
    have hlen : st.perm.length = ds.training := by rw [hp.length_eq]; simp
    have hlt : st.current < st.perm.length := by
      unfold rd at hv
      exact (List.getElem?_eq_some_iff.1 hv).1
    have htake : st.perm.take (st.current + 1) = st.perm.take st.current ++ [v] := by
      rw [List.take_add_one]
      unfold rd at hv
      rw [hv]; rfl
    dsimp only at hsel
    split at hsel
    · rename_i hge
      simp only [Prod.mk.injEq] at hsel
      obtain ⟨rfl, rfl, rfl⟩ := hsel
      refine ⟨⟨?_, ?_, ?_⟩, rfl⟩
      · exact (hrnd _ _).trans hp
      · show 0 < ds.training ∨ _
        left; omega
      · refine ⟨chunks ++ [st.perm], ?_, ?_⟩
        · intro c hc'
          rcases List.mem_append.1 hc' with h | h
          · exact hch c h
          · rw [List.mem_singleton.1 h]; exact hp
        · have hall : st.perm = st.perm.take st.current ++ [v] := by
            rw [← htake, List.take_of_length_le (by omega)]
          simp only [redoPermutation, trained, ht, List.filter_append, List.map_append,
            List.take_zero, List.append_nil]
          rw [List.flatten_append]
          simp only [List.flatten_cons, List.flatten_nil, List.append_nil]
          rw [show (List.filter (fun r => !r.testing) st.requests).map (·.index) =
            trained st.requests from rfl, hseq, List.append_assoc]
          simp [← hall]
    · rename_i hge
      simp only [Prod.mk.injEq] at hsel
      obtain ⟨rfl, rfl, rfl⟩ := hsel
      refine ⟨⟨hp, ?_, chunks, hch, ?_⟩, rfl⟩
      · dsimp only; left; omega
      · show trained (st.requests ++ [⟨st.testing, pos, v⟩]) = _ ++ st.perm.take (st.current + 1)
        rw [htake, ← List.append_assoc, ← hseq]
        simp [trained, ht]

section
variable [Zero R] [LT R] [DecidableLT R]

/-- What a position of the batch does apart from writing tensors and drawing numbers. -/
theorem fillPosition_cases {rnd : Random R G} {p : R} {ds : Data R} {sample : Nat}
    {st st' : State R G} (h : fillPosition rnd p ds sample st = .done st') :
    ∃ e nw s1, select rnd ds st = some (e, nw, s1) ∧ st'.perm = s1.perm ∧ st'.current = s1.current ∧
      st'.currentTesting = s1.currentTesting ∧ st'.testing = s1.testing ∧
      st'.requests = s1.requests ++ [⟨s1.testing, sample, e⟩] := by
  unfold fillPosition at h
  cases hsel : select rnd ds st with
  | none => rw [hsel] at h; cases h
  | some sel =>
    obtain ⟨e, nw, s1⟩ := sel
    refine ⟨e, nw, s1, rfl, ?_⟩
    rw [hsel] at h
    dsimp only [Outcome.ofOption_some, Outcome.bind_done] at h
    generalize hcall : (if s1.testing = true then _ else _ : Option (Bool × Outputs R)) = call at h
    cases call with
    | none => cases h
    | some r =>
      dsimp only [Outcome.ofOption_some, Outcome.bind_done] at h
      split at h
      · cases h
      · have key : ∃ st2 : State R G, (st2.perm = s1.perm ∧ st2.current = s1.current ∧
            st2.currentTesting = s1.currentTesting ∧ st2.testing = s1.testing ∧
            st2.requests = s1.requests ++ [⟨s1.testing, sample, e⟩]) ∧
            (if nw = true then Outcome.ofOption ((st2.outs.error.clear 0 (some sample)).map fun e =>
              { st2 with outs := { st2.outs with error := e } }) else .done st2) =
              Outcome.done st' := by
          split at h
          · cases hl : lossSampling rnd p sample s1.gen r.2.error with
            | none => rw [hl] at h; cases h
            | some l =>
              rw [hl] at h
              dsimp only [Option.map_some, Outcome.ofOption_some, Outcome.bind_done] at h
              exact ⟨{ s1 with requests := s1.requests ++ [⟨s1.testing, sample, e⟩], gen := l.1, outs := { r.2 with error := l.2 } },
                ⟨rfl, rfl, rfl, rfl, rfl⟩, h⟩
          · dsimp only [Outcome.bind_done] at h
            exact ⟨{ s1 with requests := s1.requests ++ [⟨s1.testing, sample, e⟩], outs := r.2 },
              ⟨rfl, rfl, rfl, rfl, rfl⟩, h⟩
        obtain ⟨st2, ⟨k1, k2, k3, k4, k5⟩, h2⟩ := key
        split at h2
        · cases hc : st2.outs.error.clear 0 (some sample) with
          | none => rw [hc] at h2; cases h2
          | some e2 =>
            rw [hc] at h2
            dsimp only [Option.map_some, Outcome.ofOption_some] at h2
            obtain rfl := Outcome.done.inj h2
            exact ⟨k1, k2, k3, k4, k5⟩
        · obtain rfl := Outcome.done.inj h2
          exact ⟨k1, k2, k3, k4, k5⟩

theorem fillPosition_shuffled {rnd : Random R G} (hrnd : ∀ g l, (rnd.shuffle g l).1.Perm l) {p : R}
    {ds : Data R} {sample : Nat} {st st' : State R G} (hi : Shuffled ds.training st)
    (h : fillPosition rnd p ds sample st = .done st') :
    Shuffled ds.training st' ∧ st'.testing = st.testing ∧
      (trained st'.requests).length = (trained st.requests).length + (if st.testing then 0 else 1) := by
  obtain ⟨e, nw, s1, hsel, k1, k2, k3, k4, k5⟩ := fillPosition_cases h
  obtain ⟨h1, h2⟩ := select_shuffled hrnd hi hsel sample
  refine ⟨h1.of_eq k1 k2 (by rw [k5]), by rw [k4, h2], ?_⟩
  have hreq : s1.requests = st.requests := by
    unfold select at hsel
    split at hsel
    · split at hsel <;>
      · simp only [Option.some.injEq, Prod.mk.injEq] at hsel
        rw [← hsel.2.2]
    · rw [Option.map_eq_some_iff] at hsel
      obtain ⟨v, _, hsel⟩ := hsel
      dsimp only at hsel
      split at hsel <;>
      · simp only [Prod.mk.injEq] at hsel
        first | rw [← hsel.2.2]; done | (rw [← hsel.2.2]; rfl)
  rw [k5, hreq, h2]
  cases ht : st.testing <;> simp [trained]

theorem feedForward_shuffled {rnd : Random R G} (hrnd : ∀ g l, (rnd.shuffle g l).1.Perm l) {p : R}
    {ds : Data R} (batch : Nat) {st st' : State R G} (hi : Shuffled ds.training st)
    (h : feedForward rnd p ds batch st = .done st') :
    Shuffled ds.training st' ∧ st'.testing = st.testing ∧
      (trained st'.requests).length =
        (trained st.requests).length + (if st.testing then 0 else batch) := by
  unfold feedForward at h
  induction batch generalizing st' with
  | zero =>
    obtain rfl := Outcome.done.inj h
    exact ⟨hi, rfl, by simp⟩
  | succ n ih =>
    rw [forO] at h
    cases hn : forO n (fillPosition rnd p ds) st with
    | done s1 =>
      rw [hn] at h
      obtain ⟨h1, h2, h3⟩ := ih hn
      obtain ⟨k1, k2, k3⟩ := fillPosition_shuffled hrnd h1 h
      refine ⟨k1, k2.trans h2, ?_⟩
      rw [k3, h3, h2]
      split <;> omega
    | fatal => rw [hn] at h; cases h
    | undefined => rw [hn] at h; cases h

/-- Batches of a history that are drawn in training mode. -/
def trainingBatches : Bool → List Op → Nat
  | _, [] => 0
  | _, .setTesting b :: ops => trainingBatches b ops
  | m, .forward :: ops => (if m then 0 else 1) + trainingBatches m ops

theorem run_shuffled {rnd : Random R G} (hrnd : ∀ g l, (rnd.shuffle g l).1.Perm l) {p : R}
    {ds : Data R} (batch : Nat) (ops : List Op) {st st' : State R G} (hi : Shuffled ds.training st)
    (h : run rnd p ds batch ops st = .done st') :
    Shuffled ds.training st' ∧ (trained st'.requests).length =
      (trained st.requests).length + batch * trainingBatches st.testing ops := by
  induction ops generalizing st with
  | nil =>
    obtain rfl := Outcome.done.inj h
    exact ⟨hi, by simp [trainingBatches]⟩
  | cons op ops ih =>
    cases op with
    | setTesting b =>
      rw [run] at h
      exact ih (st := setTestingMode b st) (hi.of_eq rfl rfl rfl) h
    | forward =>
      rw [run] at h
      cases hf : feedForward rnd p ds batch st with
      | done s1 =>
        rw [hf] at h
        obtain ⟨h1, h2, h3⟩ := feedForward_shuffled hrnd batch hi hf
        obtain ⟨h4, h5⟩ := ih h1 h
        refine ⟨h4, ?_⟩
        rw [h5, h3, h2, trainingBatches, Nat.mul_add]
        cases st.testing <;> simp <;> omega
      | fatal => rw [hf] at h; cases h
      | undefined => rw [hf] at h; cases h

end

/-- Cutting a sequence of permutations into groups. -/
theorem groups_perm {n : Nat} {chunks : List (List Nat)} (hc : ∀ c ∈ chunks, c.Perm (List.range n))
    (rest : List Nat) (k : Nat) (hk : k < chunks.length) :
    (((chunks.flatten ++ rest).drop (k * n)).take n).Perm (List.range n) := by
  induction chunks generalizing k with
  | nil => simp at hk
  | cons c cs ih =>
    have hl : c.length = n := by rw [(hc c (List.mem_cons_self ..)).length_eq]; simp
    cases k with
    | zero =>
      simp only [Nat.zero_mul, List.drop_zero, List.flatten_cons, List.append_assoc]
      rw [List.take_append_of_le_length (by omega), List.take_of_length_le (by omega)]
      exact hc c (List.mem_cons_self ..)
    | succ k =>
      have e : (k + 1) * n = c.length + k * n := by rw [Nat.add_mul, hl]; omega
      rw [e, List.flatten_cons, List.append_assoc, ← List.drop_drop, List.drop_left]
      exact ih (fun c h => hc c (List.mem_cons_of_mem _ h)) k (by simpa using hk)

theorem flatten_length {n : Nat} {chunks : List (List Nat)} (hc : ∀ c ∈ chunks, c.length = n) :
    chunks.flatten.length = chunks.length * n := by
  induction chunks with
  | nil => simp
  | cons c cs ih =>
    rw [List.flatten_cons, List.length_append, ih (fun c h => hc c (List.mem_cons_of_mem _ h)),
      hc c (List.mem_cons_self ..), List.length_cons, Nat.add_mul]
    omega

/-! ### Loss sampling -/

/-- The generator after `k` draws. -/
def after (rnd : Random R G) (g : G) : Nat → G
  | 0 => g
  | k + 1 => (rnd.draw (after rnd g k)).2

/-- The value of draw number `k`. -/
def nth (rnd : Random R G) (g : G) (k : Nat) : R := (rnd.draw (after rnd g k)).1

section
variable [Zero R]

theorem zero_block {t : Tensor R} (hw : t.WF) {sample : Nat} (hs : sample < t.samples)
    (hm : 0 < t.maps) (W H : Nat) (hW : W = t.width) (hH : H = t.height) (bx by' : Nat) :
    ∃ u, forRange (12 * by') (min (12 * by' + 12) H) (fun iy =>
          forRange (12 * bx) (min (12 * bx + 12) W) (fun ix e =>
            e.put ix iy 0 sample 0)) t = some u ∧
      Upd t u (fun x y m s => if x / 12 = bx ∧ y / 12 = by' ∧ m = 0 ∧ s = sample then some 0
        else none) := by
  refine upd_range hw (fun y0 x y m s => if x / 12 = bx ∧ y = y0 ∧ m = 0 ∧ s = sample then some 0
        else none) _ ?_ ?_ ?_
  · intro y0 u hy0 hy0' hsu hwu
    refine upd_range hwu (fun x0 x y m s => if x = x0 ∧ y = y0 ∧ m = 0 ∧ s = sample then some 0
        else none) _ ?_ ?_ ?_
    · intro x0 u2 hx0 hx0' hsu2 hwu2
      obtain ⟨k1, k2, k3, k4⟩ := hsu.trans hsu2
      exact upd_put hwu2 ⟨by omega, by omega, by omega, by omega⟩ 0
    · intro x0 x y m s v hx0 hx0' _ e
      split at e
      · rename_i hc
        obtain ⟨rfl, rfl, rfl, rfl⟩ := hc
        rw [if_pos ⟨by omega, rfl, rfl, rfl⟩]; exact e
      · cases e
    · rintro x y m s v ⟨i1, _⟩ e
      split at e
      · rename_i hc
        obtain ⟨c1, rfl, rfl, rfl⟩ := hc
        have := hsu.2.1
        exact ⟨x, by omega, by omega, by rw [if_pos ⟨rfl, rfl, rfl, rfl⟩]; exact e⟩
      · cases e
  · intro y0 x y m s v hy0 hy0' _ e
    split at e
    · rename_i hc
      obtain ⟨c1, rfl, rfl, rfl⟩ := hc
      rw [if_pos ⟨c1, by omega, rfl, rfl⟩]; exact e
    · cases e
  · rintro x y m s v ⟨_, i2, _⟩ e
    split at e
    · rename_i hc
      obtain ⟨c1, c2, rfl, rfl⟩ := hc
      exact ⟨y, by omega, by omega, by rw [if_pos ⟨c1, rfl, rfl, rfl⟩]; exact e⟩
    · cases e

variable [LT R] [DecidableLT R]

theorem lossSampling_spec (rnd : Random R G) (p : R) {sample : Nat} (g : G) {t : Tensor R}
    (hw : t.WF) (hs : sample < t.samples) (hm : 0 < t.maps) :
    ∃ u, lossSampling rnd p sample g t =
        some (after rnd g ((t.height + 11) / 12 * ((t.width + 11) / 12)), u) ∧
      Upd t u (fun x y m s => if m = 0 ∧ s = sample ∧
        p < nth rnd g (y / 12 * ((t.width + 11) / 12) + x / 12) then some 0 else none) := by
  unfold lossSampling
  dsimp only
  rw [forLoop_flatten]
  obtain ⟨⟨g', u⟩, h1, h2, h3⟩ := forLoop_inv
    (n := (t.height + 11) / 12 * ((t.width + 11) / 12)) (s := (g, t))
    (f := fun k st =>
      if p < (rnd.draw st.1).1 then
        (forRange (12 * (k / ((t.width + 11) / 12))) (min (12 * (k / ((t.width + 11) / 12)) + 12)
          t.height) (fun iy =>
          forRange (12 * (k % ((t.width + 11) / 12))) (min (12 * (k % ((t.width + 11) / 12)) + 12)
            t.width) (fun ix e => e.put ix iy 0 sample 0)) st.2).map fun e => ((rnd.draw st.1).2, e)
      else some ((rnd.draw st.1).2, st.2))
    (P := fun k st => st.1 = after rnd g k ∧ Upd t st.2 (fun x y m s => if m = 0 ∧ s = sample ∧
        y / 12 * ((t.width + 11) / 12) + x / 12 < k ∧
        p < nth rnd g (y / 12 * ((t.width + 11) / 12) + x / 12) then some 0 else none))
    ⟨rfl, (Upd.refl hw).congr (by intro x y m s _; rw [if_neg (by omega)])⟩ (by
    rintro k ⟨gk, u⟩ hk ⟨h1, h2⟩
    dsimp only at h1 h2 ⊢
    have hwpos : 0 < (t.width + 11) / 12 := by
      rcases Nat.eq_zero_or_pos ((t.width + 11) / 12) with h | h
      · rw [h] at hk; omega
      · exact h
    have hdm : k / ((t.width + 11) / 12) * ((t.width + 11) / 12) + k % ((t.width + 11) / 12) = k :=
      Nat.div_add_mod' _ _
    have hmod : k % ((t.width + 11) / 12) < (t.width + 11) / 12 := Nat.mod_lt _ hwpos
    have hd : (rnd.draw gk).1 = nth rnd g k := by rw [h1]; rfl
    have hg : (rnd.draw gk).2 = after rnd g (k + 1) := by rw [h1]; rfl
    rw [hd, hg]
    have hblock : ∀ x y, x < t.width → (y / 12 * ((t.width + 11) / 12) + x / 12 = k ↔
        x / 12 = k % ((t.width + 11) / 12) ∧ y / 12 = k / ((t.width + 11) / 12)) := by
      intro x y hx
      constructor
      · intro e
        have := radix_inj (n := (t.width + 11) / 12) (show x / 12 < (t.width + 11) / 12 by omega)
          hmod (e.trans hdm.symm)
        exact ⟨this.2, this.1⟩
      · rintro ⟨e1, e2⟩
        rw [e1, e2]; exact hdm
    by_cases hc : p < nth rnd g k
    · rw [if_pos hc]
      obtain ⟨v, e1, e2⟩ := zero_block h2.wf (sample := sample)
        (by have := h2.sh.1; omega) (by have := h2.sh.2.2.2; omega) t.width t.height h2.sh.2.1
        h2.sh.2.2.1 (k % ((t.width + 11) / 12)) (k / ((t.width + 11) / 12))
      refine ⟨(after rnd g (k + 1), v), by rw [e1]; rfl, rfl, (h2.trans e2).congr ?_⟩
      rintro x y m s ⟨i1, _⟩
      have hb := hblock x y i1
      generalize y / 12 * ((t.width + 11) / 12) + x / 12 = j at *
      by_cases hms : m = 0 ∧ s = sample
      · obtain ⟨rfl, rfl⟩ := hms
        by_cases hj : j = k
        · subst hj
          obtain ⟨b1, b2⟩ := hb.1 rfl
          rw [if_pos ⟨b1, b2, rfl, rfl⟩]
          exact (if_pos ⟨rfl, rfl, by omega, hc⟩).symm
        · rw [if_neg (fun h => hj (hb.2 ⟨h.1, h.2.1⟩))]
          by_cases hlt : j < k ∧ p < nth rnd g j
          · rw [if_pos ⟨rfl, rfl, hlt.1, hlt.2⟩]
            exact (if_pos ⟨rfl, rfl, by omega, hlt.2⟩).symm
          · rw [if_neg (by tauto), if_neg]
            · rfl
            · rintro ⟨_, _, q1, q2⟩
              exact hlt ⟨by omega, q2⟩
      · rw [if_neg (by tauto), if_neg (by tauto), if_neg (by tauto)]; rfl
    · rw [if_neg hc]
      refine ⟨_, rfl, rfl, h2.congr ?_⟩
      intro x y m s _
      generalize y / 12 * ((t.width + 11) / 12) + x / 12 = j
      by_cases hj : j = k
      · subst hj
        rw [if_neg (by omega), if_neg (by tauto)]
      · by_cases hlt : m = 0 ∧ s = sample ∧ j < k ∧ p < nth rnd g j
        · rw [if_pos hlt, if_pos ⟨hlt.1, hlt.2.1, by omega, hlt.2.2.2⟩]
        · rw [if_neg hlt, if_neg]
          rintro ⟨q1, q2, q3, q4⟩
          exact hlt ⟨q1, q2, by omega, q4⟩)
  dsimp only at h2
  refine ⟨u, by rw [h1, h2], h3.congr ?_⟩
  rintro x y m s ⟨i1, i2, _⟩
  have hlt : y / 12 * ((t.width + 11) / 12) + x / 12 <
      (t.height + 11) / 12 * ((t.width + 11) / 12) :=
    radix_lt (by omega) (by omega)
  simp [hlt]

/-! ### Defined histories and test runs -/

/-- What the input layer relies on: fetching a sample in range succeeds and keeps the other samples'
weights. -/
structure Good (ds : Data R) (batch : Nat) (Fit : Outputs R → Prop) : Prop where
  error : ∀ o, Fit o → o.error.WF ∧ o.error.samples = batch ∧ 0 < o.error.maps
  setError : ∀ o e, Fit o → e.WF → Sh o.error e → Fit { o with error := e }
  training : ∀ o s i, Fit o → s < batch → i < ds.training → ∃ o', ds.getTraining o s i =
    some (true, o') ∧ Fit o' ∧ Sh o.error o'.error ∧
    ∀ x y m s', o.error.InRange x y m s' → s' ≠ s → o'.error.get x y m s' = o.error.get x y m s'
  testing : ∀ o s i, Fit o → s < batch → i < ds.testing → ∃ o', ds.getTesting o s i =
    some (true, o') ∧ Fit o' ∧ Sh o.error o'.error ∧
    ∀ x y m s', o.error.InRange x y m s' → s' ≠ s → o'.error.get x y m s' = o.error.get x y m s'

/-- A position in testing mode. -/
theorem fillPosition_testing {rnd : Random R G} {p : R} {ds : Data R} {batch : Nat}
    {Fit : Outputs R → Prop} (hg : Good ds batch Fit) {sample : Nat} (hs : sample < batch)
    {st : State R G} (ht : st.testing = true) (hf : Fit st.outs) (hn : 0 < ds.testing) :
    ∃ st', fillPosition rnd p ds sample st = .done st' ∧ Fit st'.outs ∧ st'.testing = true ∧
      Sh st.outs.error st'.outs.error ∧
      st'.currentTesting = min (max st.currentTesting ds.testing) (st.currentTesting + 1) ∧
      st'.requests = st.requests ++ [⟨true, sample,
        if st.currentTesting < ds.testing then st.currentTesting else 0⟩] ∧
      (ds.testing ≤ st.currentTesting → ∀ x y m, st.outs.error.InRange x y m sample →
        st'.outs.error.get x y m sample = some 0) ∧
      (∀ x y m s', st.outs.error.InRange x y m s' → s' ≠ sample →
        st'.outs.error.get x y m s' = st.outs.error.get x y m s') := by
  by_cases hc : ds.testing ≤ st.currentTesting
  · obtain ⟨o', g1, g2, g3, g4⟩ := hg.testing st.outs sample 0 hf hs hn
    obtain ⟨w1, w2, w3⟩ := hg.error o' g2
    obtain ⟨u, c1, c2⟩ := upd_clear_sample w1 (0 : R) (show sample < o'.error.samples by omega)
    refine ⟨{ st with requests := st.requests ++ [⟨true, sample, 0⟩],
                      outs := { o' with error := u } }, ?_, ?_, ht, ?_, ?_, ?_, ?_, ?_⟩
    · unfold fillPosition select
      simp [ht, hc, g1, c1]
    · exact hg.setError o' u g2 c2.wf c2.sh
    · exact g3.trans c2.sh
    · show st.currentTesting = _
      omega
    · rw [if_neg (by omega)]
    · intro _ x y m hin
      exact c2.hit (g3.inRange.2 hin) (if_pos rfl)
    · intro x y m s' hin hne
      rw [← g4 x y m s' hin hne]
      exact c2.miss (g3.inRange.2 hin) (if_neg hne)
  · obtain ⟨o', g1, g2, g3, g4⟩ := hg.testing st.outs sample st.currentTesting hf hs (by omega)
    refine ⟨{ st with currentTesting := st.currentTesting + 1,
                      requests := st.requests ++ [⟨true, sample, st.currentTesting⟩],
                      outs := o' }, ?_, g2, ht, g3, ?_, ?_, ?_, g4⟩
    · unfold fillPosition select
      simp [ht, hc, g1]
    · show st.currentTesting + 1 = _
      omega
    · rw [if_pos (by omega)]
    · intro h; omega

/-- A position in training mode. -/
theorem fillPosition_training {rnd : Random R G} {p : R} {ds : Data R} {batch : Nat}
    {Fit : Outputs R → Prop} (hg : Good ds batch Fit) {sample : Nat} (hs : sample < batch)
    {st : State R G} (ht : st.testing = false) (hf : Fit st.outs)
    (hsh : Shuffled ds.training st) (hn : 0 < ds.training) :
    ∃ st', fillPosition rnd p ds sample st = .done st' ∧ Fit st'.outs := by
  obtain ⟨hp, hc, _⟩ := hsh
  have hlen : st.perm.length = ds.training := by rw [hp.length_eq]; simp
  have hcur : st.current < st.perm.length := by omega
  have hlt : st.perm[st.current] < ds.training := by
    have : st.perm[st.current] ∈ List.range ds.training := hp.mem_iff.1 (List.getElem_mem hcur)
    exact List.mem_range.1 this
  have hsel : ∃ st1 : State R G, select rnd ds st = some (st.perm[st.current], false, st1) ∧
      st1.testing = false ∧ st1.outs = st.outs := by
    unfold select rd
    rw [if_neg (by rw [ht]; simp), List.getElem?_eq_getElem hcur]
    simp only [Option.map_some]
    split
    · exact ⟨_, rfl, ht, rfl⟩
    · exact ⟨_, rfl, ht, rfl⟩
  obtain ⟨st1, hsel, ht1, ho⟩ := hsel
  obtain ⟨o', g1, g2, g3, g4⟩ := hg.training st.outs sample _ hf hs hlt
  obtain ⟨w1, w2, w3⟩ := hg.error o' g2
  unfold fillPosition
  rw [hsel]
  by_cases hfcn : ds.fcn = true
  · obtain ⟨u, l1, l2⟩ := lossSampling_spec rnd p (sample := sample) st1.gen w1 (by omega) w3
    refine ⟨{ st1 with requests := st1.requests ++ [⟨st1.testing, sample, st.perm[st.current]⟩],
                       gen := after rnd st1.gen ((o'.error.height + 11) / 12 *
                         ((o'.error.width + 11) / 12)), outs := { o' with error := u } }, ?_, ?_⟩
    · simp [ht1, ho, g1, hfcn, l1]
    · exact hg.setError o' u g2 l2.wf l2.sh
  · refine ⟨{ st1 with requests := st1.requests ++ [⟨st1.testing, sample, st.perm[st.current]⟩],
                       outs := o' }, ?_, g2⟩
    simp [ht1, ho, g1, hfcn]

theorem feedForward_defined {rnd : Random R G} (hrnd : ∀ g l, (rnd.shuffle g l).1.Perm l) {p : R}
    {ds : Data R} {batch : Nat} {Fit : Outputs R → Prop} (hg : Good ds batch Fit)
    (h1 : 0 < ds.training) (h2 : 0 < ds.testing) {st : State R G} (hf : Fit st.outs)
    (hsh : Shuffled ds.training st) :
    ∃ st', feedForward rnd p ds batch st = .done st' ∧ Fit st'.outs := by
  obtain ⟨st', e1, e2, e3⟩ := forO_inv (n := batch) (f := fillPosition rnd p ds) (s := st)
    (fun _ s => Fit s.outs ∧ Shuffled ds.training s) ⟨hf, hsh⟩ (by
      rintro i s hi ⟨k1, k2⟩
      cases ht : s.testing with
      | true =>
        obtain ⟨s', f1, f2, _⟩ := fillPosition_testing (rnd := rnd) (p := p) hg hi ht k1 h2
        exact ⟨s', f1, f2, (fillPosition_shuffled hrnd k2 f1).1⟩
      | false =>
        obtain ⟨s', f1, f2⟩ := fillPosition_training (rnd := rnd) (p := p) hg hi ht k1 k2 h1
        exact ⟨s', f1, f2, (fillPosition_shuffled hrnd k2 f1).1⟩)
  exact ⟨st', e1, e2⟩

theorem run_defined {rnd : Random R G} (hrnd : ∀ g l, (rnd.shuffle g l).1.Perm l) {p : R}
    {ds : Data R} {batch : Nat} {Fit : Outputs R → Prop} (hg : Good ds batch Fit)
    (h1 : 0 < ds.training) (h2 : 0 < ds.testing) (ops : List Op) {st : State R G} (hf : Fit st.outs)
    (hsh : Shuffled ds.training st) :
    ∃ st', run rnd p ds batch ops st = .done st' ∧ Fit st'.outs := by
  induction ops generalizing st with
  | nil => exact ⟨st, rfl, hf⟩
  | cons op ops ih =>
    cases op with
    | setTesting b =>
      rw [run]
      exact ih (st := setTestingMode b st) hf (hsh.of_eq rfl rfl rfl)
    | forward =>
      rw [run]
      obtain ⟨s1, e1, e2⟩ := feedForward_defined hrnd (p := p) hg h1 h2 hf hsh
      rw [e1]
      exact ih e2 (feedForward_shuffled hrnd batch hsh e1).1

/-- One batch in testing mode. -/
theorem feedForward_testing {rnd : Random R G} {p : R} {ds : Data R} {batch : Nat}
    {Fit : Outputs R → Prop} (hg : Good ds batch Fit) {st : State R G} (ht : st.testing = true)
    (hf : Fit st.outs) (hn : 0 < ds.testing) (done : Nat)
    (hcur : st.currentTesting = min done ds.testing) :
    ∃ st', feedForward rnd p ds batch st = .done st' ∧ Fit st'.outs ∧ st'.testing = true ∧
      st'.currentTesting = min (done + batch) ds.testing ∧
      st'.requests = st.requests ++ (List.range batch).map (fun s =>
        ⟨true, s, if done + s < ds.testing then done + s else 0⟩) ∧
      Sh st.outs.error st'.outs.error ∧
      ∀ x y m s, st.outs.error.InRange x y m s → ds.testing ≤ done + s →
        st'.outs.error.get x y m s = some 0 := by
  obtain ⟨st', e1, e2, e3, e4, e5, e6, e7⟩ := forO_inv (n := batch) (f := fillPosition rnd p ds)
    (s := st)
    (fun k s => Fit s.outs ∧ s.testing = true ∧ s.currentTesting = min (done + k) ds.testing ∧
      s.requests = st.requests ++ (List.range k).map (fun s =>
        ⟨true, s, if done + s < ds.testing then done + s else 0⟩) ∧
      Sh st.outs.error s.outs.error ∧
      ∀ x y m j, st.outs.error.InRange x y m j → j < k → ds.testing ≤ done + j →
        s.outs.error.get x y m j = some 0)
    ⟨hf, ht, hcur, by simp, Sh.rfl' _, by intros; omega⟩ (by
      rintro i s hi ⟨k1, k2, k3, k4, k5, k6⟩
      obtain ⟨s', f1, f2, f3, f4, f5, f6, f7, f8⟩ :=
        fillPosition_testing (rnd := rnd) (p := p) hg hi k2 k1 hn
      refine ⟨s', f1, f2, f3, by omega, ?_, k5.trans f4, ?_⟩
      · rw [f6, k4, List.range_succ, List.map_append, List.append_assoc]
        congr 2
        simp only [List.map_cons, List.map_nil, List.cons.injEq, Request.mk.injEq, true_and, and_true]
        split <;> split <;> omega
      · intro x y m j hin hj hge
        by_cases hji : j = i
        · subst hji
          exact f7 (by omega) x y m (k5.inRange.2 hin)
        · rw [f8 x y m j (k5.inRange.2 hin) hji]
          exact k6 x y m j hin (by omega) hge)
  refine ⟨st', e1, e2, e3, e4, e5, e6, ?_⟩
  intro x y m s hin hge
  exact e7 x y m s hin (by have := (hg.error _ hf).2.1; have := hin.2.2.2; omega) hge

end
end CN24.Sampling
