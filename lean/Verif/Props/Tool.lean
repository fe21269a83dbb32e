import Verif.Proof.Tool
import Verif.Props.NetGraph

/-
C74: the commands of the training tool do what its help text says.
-/

namespace CN24.Props
open CN24 CN24.Config CN24.Net CN24.NetConfig CN24.Tool

variable {σ : Type _}

/-- C74: every documented command, with any options in any order, any numbers below 2^31 and any names, is read as the
help text says.  Missing for the full claim: a file to load whose name contains `last_layer=`, and a file for the graph of
the training network whose name contains `test` (see `C74_graph_misread` and `C74_load_misread`). -/
theorem C74_documented_partial (s : Said) (hok : s.Ok) (hc : s.Clear) : Tool.parse s.text = .done s.action :=
  parse_said s hok hc

example : (Said.train [.noSnapshots 1, .epochs 30]).text = "train no_snapshots=1 epochs=30".toList ∧
    (Said.train [.noSnapshots 1, .epochs 30]).action = .train 30 false false := by decide

example : (Said.load "net.Tensor".toList (some 4)).Ok ∧ (Said.load "net.Tensor".toList (some 4)).Clear ∧
    (Said.load "net.Tensor".toList (some 4)).text = "load file=net.Tensor last_layer=4".toList :=
  ⟨⟨by unfold NameOk; decide, by intro k h; injection h with h; omega⟩, by unfold Said.Clear; decide, by decide⟩

/-! ### Scripts -/

/-- Carrying out actions one after the other up to the first request to end. -/
def obey (e : Engine σ) : List Action → World σ → Outcome (World σ)
  | [], w => .done w
  | .quit :: _, w => .done w
  | a :: as, w => (exec e a w).bind (obey e as)

theorem obey_cons (e : Engine σ) {a : Action} (h : a ≠ .quit) (as : List Action) (w : World σ) :
    obey e (a :: as) w = (exec e a w).bind (obey e as) := by
  cases a <;> first | exact absurd rfl h | rfl

theorem command_empty (e : Engine σ) (w : World σ) : command e [] w = .done (w, true) := rfl

theorem lines_said (e : Engine σ) (ss : List Said) (hok : ∀ s ∈ ss, s.Ok) (hc : ∀ s ∈ ss, s.Clear) (tail : List Str)
    (ht : ∀ w, lines e tail w = .done w) (w : World σ) :
    lines e (ss.map Said.text ++ tail) w = obey e (ss.map Said.action) w := by
  induction ss generalizing w with
  | nil => exact ht w
  | cons s ss ih =>
    rw [List.map_cons, List.map_cons, List.cons_append, lines, command,
      parse_said s (hok s (by simp)) (hc s (by simp)), Outcome.bind_done]
    by_cases hq : s.action = .quit
    · rw [hq]
      rfl
    · rw [obey_cons e hq]
      cases exec e s.action w with
      | done w' =>
        rw [Outcome.bind_done, Outcome.bind_done, Outcome.bind_done, decide_eq_true hq, if_pos rfl]
        exact ih (fun s h => hok s (by simp [h])) (fun s h => hc s (by simp [h])) w'
      | fatal => rfl
      | undefined => rfl

/-- C74: a script with one documented command per line carries out exactly these commands, in this order, up to the first
one that asks to end; with or without a line feed at its end. -/
theorem C74_script (e : Engine σ) (ss : List Said) (hne : ss ≠ []) (hok : ∀ s ∈ ss, s.Ok) (hc : ∀ s ∈ ss, s.Clear)
    (w : World σ) :
    script e (joinLines (ss.map Said.text)) w = obey e (ss.map Said.action) w ∧
    script e ((ss.map Said.text).flatMap (· ++ ['\n'])) w = obey e (ss.map Said.action) w := by
  have hl : ∀ l ∈ ss.map Said.text, '\n' ∉ l := by
    intro l hl
    obtain ⟨s, hs, rfl⟩ := List.mem_map.1 hl
    exact newline_said s (hok s hs)
  refine ⟨?_, ?_⟩
  · unfold script
    rw [linesOf_joinLines (by simpa using hne) hl]
    have := lines_said e ss hok hc [] (fun _ => rfl) w
    rwa [List.append_nil] at this
  · unfold script
    rw [ListStream.linesOf_unlines hl]
    exact lines_said e ss hok hc [[]] (fun _ => rfl) w

/-! ### Saving and loading -/

/-- The state keeps the parameters it is given, and no command changes how many parameters a node has. -/
structure Lawful (e : Engine σ) : Prop where
  get : ∀ n s, n.map List.length = (e.params s).map List.length → e.params (e.setParams n s) = n
  train : ∀ n b s s', e.train n b s = .done s' → (e.params s').map List.length = (e.params s).map List.length
  test : ∀ s s', e.test s = .done s' → (e.params s').map List.length = (e.params s).map List.length
  reset : ∀ s s', e.reset s = .done s' → (e.params s').map List.length = (e.params s).map List.length
  experiment : ∀ n s s', e.experiment n s = .done s' → (e.params s').map List.length = (e.params s).map List.length
  setEpoch : ∀ n s, (e.params (e.setEpoch n s)).map List.length = (e.params s).map List.length
  trainingStats : ∀ b s, (e.params (e.trainingStats b s)).map List.length = (e.params s).map List.length

/-- The line does not ask to write the file. -/
def Spares (file line : Str) : Prop :=
  Tool.parse line ≠ .done (.save file) ∧ ∀ t, Tool.parse line ≠ .done (.graph file t)

theorem valueOf_restored {t : Tensor (Option F32)} {u : Tensor F32} (h : valueOf t = some u) :
    (⟨u.samples, u.width, u.height, u.maps, u.data.map some⟩ : Tensor (Option F32)) = t ∧
      u.data.length = t.data.length := by
  unfold valueOf at h
  obtain ⟨d, hd, rfl⟩ := Option.map_eq_some_iff.1 h
  have : ∀ (l : List (Option F32)) (d : List F32), l.mapM id = some d → d.map some = l := by
    intro l
    induction l with
    | nil => intro d h; simp at h; subst h; rfl
    | cons x l ih =>
      intro d h
      rw [List.mapM_cons] at h
      simp only [id_eq, Option.bind_eq_bind, Option.bind_eq_some_iff, Option.pure_def, Option.some.injEq] at h
      obtain ⟨y, rfl, d', h', rfl⟩ := h
      rw [List.map_cons, ih d' h']
  have h1 := this _ _ hd
  refine ⟨?_, by rw [← h1, List.length_map]⟩
  dsimp only
  rw [h1]

theorem mapM_spec {α β : Type _} {f : α → Option β} : ∀ {l : List α} {r : List β}, l.mapM f = some r →
    List.Forall₂ (fun a b => f a = some b) l r := by
  intro l
  induction l with
  | nil => intro r h; simp at h; subst h; exact List.Forall₂.nil
  | cons a l ih =>
    intro r h
    rw [List.mapM_cons] at h
    simp only [Option.bind_eq_bind, Option.bind_eq_some_iff, Option.pure_def, Option.some.injEq] at h
    obtain ⟨b, hb, r', h', rfl⟩ := h
    exact List.Forall₂.cons hb (ih h')

theorem forall₂_map {α β : Type _} {R : α → β → Prop} {g : β → α} {l : List α} {r : List β} (h : List.Forall₂ R l r)
    (hg : ∀ a b, R a b → g b = a) : r.map g = l := by
  induction h with
  | nil => rfl
  | cons hr _ ih => rw [List.map_cons, hg _ _ hr, ih]

theorem valuesOf_restored {ps : Parameters} {saved : List (List (Tensor F32))} (h : valuesOf ps = some saved) :
    restored saved = ps := by
  unfold restored
  refine forall₂_map (mapM_spec h) ?_
  intro l r hr
  refine forall₂_map (mapM_spec hr) ?_
  intro t u hu
  exact (valueOf_restored hu).1

theorem deserialize_lengths {net net' : List (List (Tensor (Option F32)))} {s s' : IStream} {k : Nat}
    (h : deserializeParameters net s k = some (net', s')) : net'.map List.length = net.map List.length := by
  by_cases hn : net = []
  · subst hn; rw [C22_no_nodes_undefined] at h; cases h
  · obtain ⟨he, hle⟩ := deserializeParameters_eq hn s k
    obtain ⟨head, s1, h1, h2, -⟩ := loadLayers_eq (loadCount k net.length) net s hle
    rw [he, h1] at h
    injection h with h
    injection h with h _
    rw [← h, List.map_append, h2, ← List.map_append, List.take_append_drop]

/-- Lines that spare a file keep it and the numbers of parameters. -/
theorem command_keeps {e : Engine σ} (he : Lawful e) {file line : Str} (hs : Spares file line) {w : World σ}
    {r : World σ × Bool} (h : command e line w = .done r) :
    r.1.files file = w.files file ∧ (e.params r.1.state).map List.length = (e.params w.state).map List.length := by
  unfold command at h
  obtain ⟨a, ha, h⟩ := bind_eq_done h
  obtain ⟨w', hw, h⟩ := bind_eq_done h
  injection h with h
  subst h
  dsimp only
  cases a with
  | train n v sn =>
    obtain ⟨s, h1, h2⟩ := bind_eq_done hw
    injection h2 with h2; subst h2
    exact ⟨rfl, he.train _ _ _ _ h1⟩
  | test v =>
    obtain ⟨s, h1, h2⟩ := bind_eq_done hw
    injection h2 with h2; subst h2
    exact ⟨rfl, he.test _ _ h1⟩
  | reset =>
    obtain ⟨s, h1, h2⟩ := bind_eq_done hw
    injection h2 with h2; subst h2
    exact ⟨rfl, he.reset _ _ h1⟩
  | experiment n =>
    obtain ⟨s, h1, h2⟩ := bind_eq_done hw
    injection h2 with h2; subst h2
    exact ⟨rfl, he.experiment _ _ _ h1⟩
  | setEpoch n => injection hw with hw; subst hw; exact ⟨rfl, he.setEpoch _ _⟩
  | trainingStats b => injection hw with hw; subst hw; exact ⟨rfl, he.trainingStats _ _⟩
  | quit => injection hw with hw; subst hw; exact ⟨rfl, rfl⟩
  | help => injection hw with hw; subst hw; exact ⟨rfl, rfl⟩
  | weightStats _ => injection hw with hw; subst hw; exact ⟨rfl, rfl⟩
  | dataStats _ => injection hw with hw; subst hw; exact ⟨rfl, rfl⟩
  | message => injection hw with hw; subst hw; exact ⟨rfl, rfl⟩
  | load f k =>
    unfold exec at hw
    dsimp only at hw
    cases hf : w.files f with
    | none => rw [hf] at hw; injection hw with hw; subst hw; exact ⟨rfl, rfl⟩
    | some bytes =>
      rw [hf] at hw
      dsimp only at hw
      obtain ⟨⟨n', s'⟩, h1, h2⟩ := bind_eq_done hw
      injection h2 with h2; subst h2
      have hl := deserialize_lengths (Outcome.ofOption_eq_done.1 h1)
      refine ⟨rfl, ?_⟩
      dsimp only
      rw [he.get _ _ hl, hl]
  | save f =>
    have hne : ¬ file = f := by rintro rfl; exact hs.1 ha
    unfold exec at hw
    dsimp only at hw
    split at hw
    · obtain ⟨ps, h1, h2⟩ := bind_eq_done hw
      injection h2 with h2; subst h2
      exact ⟨if_neg hne, rfl⟩
    · injection hw with hw; subst hw; exact ⟨rfl, rfl⟩
  | graph f t =>
    have hne : ¬ file = f := by rintro rfl; exact hs.2 t ha
    unfold exec at hw
    dsimp only at hw
    split at hw
    · injection hw with hw; subst hw; exact ⟨if_neg hne, rfl⟩
    · injection hw with hw; subst hw; exact ⟨rfl, rfl⟩

theorem lines_keep {e : Engine σ} (he : Lawful e) {file : Str} : ∀ {ls : List Str} (_ : ∀ l ∈ ls, Spares file l)
    {w w' : World σ} (_ : lines e ls w = .done w'), w'.files file = w.files file ∧
      (e.params w'.state).map List.length = (e.params w.state).map List.length
  | [], _, w, w', h => by
    injection h with h; subst h; exact ⟨rfl, rfl⟩
  | l :: ls, hs, w, w', h => by
    rw [lines] at h
    obtain ⟨r, h1, h2⟩ := bind_eq_done h
    have k1 := command_keeps he (hs l (by simp)) h1
    cases hb : r.2 with
    | false =>
      rw [hb, if_neg (by decide)] at h2
      injection h2 with h2; subst h2
      exact k1
    | true =>
      rw [hb, if_pos rfl] at h2
      have k2 := lines_keep he (fun l h => hs l (by simp [h])) h2
      exact ⟨k2.1.trans k1.1, k2.2.trans k1.2⟩

/-- C74: after `save file=F`, any number of lines that do not write `F` again, and `load file=F`, every parameter has the
value it had when it was saved, whatever was done in between; with `last_layer=k` the parameters of the later nodes are
those before loading. -/
theorem C74_save_load (e : Engine σ) (he : Lawful e) (file : Str) (hf : NameOk file)
    (hcl : ¬ "last_layer=".toList <:+: file) (hw : e.canWrite file = true) (w w1 w2 : World σ) (b : Bool)
    (hne : e.params w.state ≠ []) (hp : ∀ l ∈ e.params w.state, ∀ t ∈ l, t.WF ∧ 0 < t.elements ∧
      t.samples < 2 ^ 64 ∧ t.width < 2 ^ 64 ∧ t.height < 2 ^ 64 ∧ t.maps < 2 ^ 64 ∧ t.elements * 4 < 2 ^ 64)
    (hsave : command e (Said.save file).text w = .done (w1, b))
    (between : List Str) (hb : ∀ l ∈ between, Spares file l) (hbetween : lines e between w1 = .done w2) (k : Option Nat)
    (hk : ∀ n, k = some n → n < 2147483648) :
    ∃ w3, command e (Said.load file k).text w2 = .done (w3, true) ∧ w3.files = w2.files ∧
      e.params w3.state = (if k.getD 0 = 0 ∨ (e.params w.state).length ≤ k.getD 0 then e.params w.state
        else (e.params w.state).take (k.getD 0 + 1) ++ (e.params w2.state).drop (k.getD 0 + 1)) := by
  unfold command at hsave
  rw [parse_said (.save file) hf trivial, Outcome.bind_done] at hsave
  obtain ⟨w1', h1, h2⟩ := bind_eq_done hsave
  injection h2 with h2
  injection h2 with h2 _
  subst h2
  simp only [Said.action, exec, hw, if_true] at h1
  obtain ⟨saved, h3, h4⟩ := bind_eq_done h1
  injection h4 with h4
  have hv := Outcome.ofOption_eq_done.1 h3
  have hr := valuesOf_restored hv
  have hfile : w1'.files file = some (serializeParameters saved) := by rw [← h4]; exact if_pos rfl
  have hst : w1'.state = w.state := by rw [← h4]; rfl
  obtain ⟨hf2, hl2⟩ := lines_keep he hb hbetween
  have hlen : (e.params w2.state).map List.length = saved.map List.length := by
    rw [hl2, hst, ← hr]
    unfold restored
    simp [Function.comp_def]
  have hs : ∀ ps ∈ saved, ∀ t ∈ ps, t.WF ∧ 0 < t.elements ∧ t.Fits := by
    intro ps hps t ht
    have hm : (⟨t.samples, t.width, t.height, t.maps, t.data.map some⟩ : Tensor (Option F32)) ∈
        (ps.map fun t => (⟨t.samples, t.width, t.height, t.maps, t.data.map some⟩ : Tensor (Option F32))) :=
      List.mem_map.2 ⟨t, ht, rfl⟩
    have := hp (ps.map fun t => ⟨t.samples, t.width, t.height, t.maps, t.data.map some⟩)
      (by rw [← hr]; exact List.mem_map.2 ⟨ps, hps, rfl⟩) _ hm
    obtain ⟨k1, k2, k3⟩ := this
    refine ⟨?_, k2, k3⟩
    have : (t.data.map some).length = t.elements := k1
    rwa [List.length_map] at this
  have hsne : saved ≠ [] := by
    rintro rfl
    exact hne (by rw [← hr]; rfl)
  have hn : saved.length = (e.params w.state).length := by rw [← hr]; unfold restored; simp
  obtain ⟨s', hd⟩ := C22_restore saved hs hsne (e.params w2.state) hlen [] (k.getD 0)
  rw [List.append_nil] at hd
  have hparse : Tool.parse (Said.load file k).text = .done (.load file (k.getD 0)) := parse_said (.load file k) ⟨hf, hk⟩ hcl
  rw [hr, hn] at hd
  refine ⟨{ w2 with state := e.setParams _ w2.state }, ?_, rfl, he.get _ _ (deserialize_lengths hd)⟩
  unfold command
  rw [hparse, Outcome.bind_done]
  simp only [exec, hf2, hfile, hd, Outcome.ofOption, Outcome.bind_done]
  rfl

/-! ### The prompt -/

theorem action_ne_quit {o : Outcome Action} {a : Action} (h : o = .done a) (h' : o ≠ .done .quit) : a ≠ .quit := by
  rintro rfl; exact h' h

theorem bind_no_quit {α : Type _} {o : Outcome α} {f : α → Outcome Action} (h : ∀ a, f a ≠ .done .quit) :
    o.bind f ≠ .done .quit := by
  intro e
  obtain ⟨a, _, h2⟩ := bind_eq_done e
  exact h a h2

theorem named_no_quit {s : Str} {a : Action} (h : a ≠ .quit) : (Outcome.done (named s a)) ≠ .done .quit := by
  intro e
  injection e with e
  unfold named at e
  split at e
  · cases e
  · exact h e

theorem ite_no_quit {c : Prop} [Decidable c] {o p : Outcome Action} (h1 : o ≠ .done .quit) (h2 : p ≠ .done .quit) :
    (if c then o else p) ≠ .done .quit := by
  split
  · exact h1
  · exact h2

theorem done_no_quit {a : Action} (h : a ≠ .quit) : Outcome.done a ≠ .done .quit := by
  intro e; injection e with e; exact h e

/-- Only the two words ask to end. -/
theorem parse_quit {l : Str} (h : Tool.parse l = .done .quit) : l = "q".toList ∨ l = "quit".toList := by
  by_cases hl : l = "q".toList ∨ l = "quit".toList
  · exact hl
  · unfold Tool.parse at h
    rw [if_neg hl] at h
    exfalso
    revert h
    refine ite_no_quit (bind_no_quit fun _ => bind_no_quit fun _ => bind_no_quit fun _ => done_no_quit (by simp)) ?_
    refine ite_no_quit (bind_no_quit fun _ => done_no_quit (by simp)) ?_
    refine ite_no_quit (bind_no_quit fun _ => bind_no_quit fun _ => named_no_quit (by simp)) ?_
    refine ite_no_quit (bind_no_quit fun _ => named_no_quit (by simp)) ?_
    refine ite_no_quit (bind_no_quit fun _ => named_no_quit (by simp)) ?_
    refine ite_no_quit (bind_no_quit fun _ => done_no_quit (by simp)) ?_
    refine ite_no_quit (done_no_quit (by simp)) ?_
    refine ite_no_quit (done_no_quit (by simp)) ?_
    refine ite_no_quit (bind_no_quit fun _ => named_no_quit (by simp)) ?_
    refine ite_no_quit (bind_no_quit fun _ => done_no_quit (by simp)) ?_
    refine ite_no_quit (bind_no_quit fun _ => done_no_quit (by simp)) ?_
    refine ite_no_quit (bind_no_quit fun _ => done_no_quit (by simp)) ?_
    exact done_no_quit (by simp)

theorem command_goes_on {e : Engine σ} {l : Str} (hl : l ≠ "q".toList ∧ l ≠ "quit".toList) {w : World σ}
    {r : World σ × Bool} (h : command e l w = .done r) : r.2 = true := by
  unfold command at h
  obtain ⟨a, ha, h⟩ := bind_eq_done h
  obtain ⟨w', hw, h⟩ := bind_eq_done h
  injection h with h
  subst h
  refine decide_eq_true ?_
  rintro rfl
  rcases parse_quit ha with h | h
  · exact hl.1 h
  · exact hl.2 h

/-- C74: at the prompt the commands are carried out in order, and nothing but a line that is exactly `q` or `quit` ends
the loop: without one it goes on for any number of rounds, also after the end of the input. -/
theorem C74_prompt_goes_on (e : Engine σ) (n : Nat) (input : List Str)
    (hq : ∀ l ∈ input, l ≠ "q".toList ∧ l ≠ "quit".toList) (w : World σ) :
    prompt e n input w = (lines e (input.take n) w).bind fun w' => .done (w', true) := by
  induction n generalizing input w with
  | zero => rfl
  | succ n ih =>
    cases input with
    | nil =>
      rw [prompt, List.headD_nil, command_empty, Outcome.bind_done, if_pos rfl, List.tail_nil, ih [] (by simp), List.take_nil, List.take_nil]
    | cons l ls =>
      rw [prompt, List.headD_cons, List.tail_cons, List.take_succ_cons, lines]
      cases hc : command e l w with
      | done r =>
        have hr := command_goes_on (hq l (by simp)) hc
        rw [Outcome.bind_done, Outcome.bind_done, hr, if_pos rfl, if_pos rfl]
        exact ih ls (fun l h => hq l (by simp [h])) r.1
      | fatal => rfl
      | undefined => rfl

/-- C74: the first `q` or `quit` ends the loop, and the input after it is not looked at. -/
theorem C74_prompt_ends (e : Engine σ) (before after : List Str)
    (hq : ∀ l ∈ before, l ≠ "q".toList ∧ l ≠ "quit".toList) (l : Str) (hl : l = "q".toList ∨ l = "quit".toList)
    (n : Nat) (hn : before.length < n) (w : World σ) :
    prompt e n (before ++ l :: after) w = (lines e before w).bind fun w' => .done (w', false) := by
  induction before generalizing n w with
  | nil =>
    obtain ⟨m, rfl⟩ : ∃ m, n = m + 1 := ⟨n - 1, by simp at hn; omega⟩
    rw [List.nil_append, prompt, List.headD_cons]
    rcases hl with rfl | rfl <;> rfl
  | cons k ks ih =>
    obtain ⟨m, rfl⟩ : ∃ m, n = m + 1 := ⟨n - 1, by simp at hn; omega⟩
    rw [List.cons_append, prompt, List.headD_cons, List.tail_cons, lines]
    cases hc : command e k w with
    | done r =>
      have hr := command_goes_on (hq k (by simp)) hc
      rw [Outcome.bind_done, Outcome.bind_done, hr, if_pos rfl, if_pos rfl]
      exact ih (fun l h => hq l (by simp [h])) m (by simp at hn; omega) r.1
    | fatal => rfl
    | undefined => rfl

/-! ### Single commands -/

/-- The bytes of an ASCII text. -/
def bytesOf (s : String) : List Byte := s.toList.map fun c => BitVec.ofNat 8 c.toNat

/-- What is different after a documented command: the parts of the program it names, one file, or nothing. -/
def Effect (e : Engine σ) (w w' : World σ) : Said → Prop
  | .train os => e.train (firstOption "epochs".toList 1 os) (decide (firstOption "no_snapshots".toList 0 os ≠ 1)) w.state =
      .done w'.state ∧ w'.files = w.files
  | .test => e.test w.state = .done w'.state ∧ w'.files = w.files
  | .setEpoch n => w' = ⟨e.setEpoch n w.state, w.files⟩
  | .experiment name => e.experiment name w.state = .done w'.state ∧ w'.files = w.files
  | .reset => e.reset w.state = .done w'.state ∧ w'.files = w.files
  | .load f _ => w'.files = w.files ∧ (w.files f = none → w' = w) ∧ ∃ ps, w'.state = w.state ∨ w'.state = e.setParams ps w.state
  | .loadUpTo _ f => w'.files = w.files ∧ (w.files f = none → w' = w) ∧
      ∃ ps, w'.state = w.state ∨ w'.state = e.setParams ps w.state
  | .graph f testing => w'.state = w.state ∧ (∀ g, g ≠ f → w'.files g = w.files g) ∧
      w'.files f = if e.canWrite f then some (bytesOf "digraph G {" ++ e.drawing testing w.state ++ bytesOf "}")
        else w.files f
  | .save f => w'.state = w.state ∧ (∀ g, g ≠ f → w'.files g = w.files g) ∧ (e.canWrite f = false → w' = w) ∧
      (e.canWrite f = true → ∃ bytes, w'.files f = some bytes)
  | .trainingStats on => w' = ⟨e.trainingStats on w.state, w.files⟩
  | .quit _ => w' = w
  | .help => w' = w

theorem action_quit (s : Said) : s.action = .quit ↔ ∃ short, s = .quit short := by
  cases s with
  | quit b => exact ⟨fun _ => ⟨b, rfl⟩, fun _ => rfl⟩
  | _ => exact ⟨fun h => (by unfold Said.action at h; cases h), fun ⟨_, h⟩ => (by cases h)⟩

/-- C74: what each documented command does; it ends the program only if it is `q` or `quit`. -/
theorem C74_effects (e : Engine σ) (s : Said) (hok : s.Ok) (hc : s.Clear) (w w' : World σ) (b : Bool)
    (h : command e s.text w = .done (w', b)) : Effect e w w' s ∧ (b = false ↔ ∃ short, s = .quit short) := by
  unfold command at h
  rw [parse_said s hok hc, Outcome.bind_done] at h
  obtain ⟨w1, h1, h2⟩ := bind_eq_done h
  injection h2 with h2
  injection h2 with h2 h3
  subst h2
  refine ⟨?_, by rw [← h3, ← action_quit, decide_eq_false_iff_not, Decidable.not_not]⟩
  clear h3 h
  cases s with
  | quit _ => injection h1 with h1; exact h1.symm
  | help => injection h1 with h1; exact h1.symm
  | train os => obtain ⟨t, h2, h3⟩ := bind_eq_done h1; injection h3 with h3; subst h3; exact ⟨h2, rfl⟩
  | test => obtain ⟨t, h2, h3⟩ := bind_eq_done h1; injection h3 with h3; subst h3; exact ⟨h2, rfl⟩
  | setEpoch n => injection h1 with h1; exact h1.symm
  | experiment n => obtain ⟨t, h2, h3⟩ := bind_eq_done h1; injection h3 with h3; subst h3; exact ⟨h2, rfl⟩
  | reset => obtain ⟨t, h2, h3⟩ := bind_eq_done h1; injection h3 with h3; subst h3; exact ⟨h2, rfl⟩
  | load f n =>
    simp only [Said.action, exec] at h1
    unfold Effect
    split at h1
    · injection h1 with h1; subst h1; exact ⟨rfl, fun _ => rfl, [], .inl rfl⟩
    · next hb =>
      obtain ⟨r, _, h2⟩ := bind_eq_done h1
      injection h2 with h2; subst h2
      exact ⟨rfl, fun h => (by rw [hb] at h; cases h), r.1, .inr rfl⟩
  | loadUpTo n f =>
    simp only [Said.action, exec] at h1
    unfold Effect
    split at h1
    · injection h1 with h1; subst h1; exact ⟨rfl, fun _ => rfl, [], .inl rfl⟩
    · next hb =>
      obtain ⟨r, _, h2⟩ := bind_eq_done h1
      injection h2 with h2; subst h2
      exact ⟨rfl, fun h => (by rw [hb] at h; cases h), r.1, .inr rfl⟩
  | graph f t =>
    simp only [Said.action, exec] at h1
    unfold Effect
    split at h1
    · next hb =>
      injection h1 with h1; subst h1
      exact ⟨rfl, fun g hg => if_neg hg, by rw [if_pos hb]; exact if_pos rfl⟩
    · next hb => injection h1 with h1; subst h1; exact ⟨rfl, fun _ _ => rfl, by rw [if_neg hb]⟩
  | save f =>
    simp only [Said.action, exec] at h1
    unfold Effect
    split at h1
    · next hb =>
      obtain ⟨ps, _, h2⟩ := bind_eq_done h1
      injection h2 with h2; subst h2
      exact ⟨rfl, fun g hg => if_neg hg, fun h => (by rw [hb] at h; cases h), fun _ => ⟨_, if_pos rfl⟩⟩
    · next hb =>
      injection h1 with h1; subst h1
      exact ⟨rfl, fun _ _ => rfl, fun _ => rfl, fun h => absurd h hb⟩
  | trainingStats on => injection h1 with h1; exact h1.symm

/-- C74: `load`, `save` and `graph` without a file, and `set experiment` without a name, only give a message. -/
theorem C74_nameless (line key rest : Str)
    (hk : key ∈ ["load".toList, "save".toList, "graph".toList, "set experiment".toList]) (hl : line = key ++ rest)
    (h1 : ¬ "file=".toList <:+: line) (h2 : ¬ "name=".toList <:+: line) (h3 : ¬ "last_layer=".toList <:+: line)
    (e : Engine σ) (w : World σ) : command e line w = .done (w, true) := by
  have p1 : param line "file".toList = some none := by
    unfold param
    rw [show "file".toList ++ ['='] = "file=".toList from rfl, find_none_of_not_infix (by decide) h1]
  have p2 : param line "name".toList = some none := by
    unfold param
    rw [show "name".toList ++ ['='] = "name=".toList from rfl, find_none_of_not_infix (by decide) h2]
  have p3 : param line "last_layer".toList = some none := by
    unfold param
    rw [show "last_layer".toList ++ ['='] = "last_layer=".toList from rfl, find_none_of_not_infix (by decide) h3]
  have t1 : Tool.text line "file".toList = .done [] := by unfold Tool.text; rw [p1]; rfl
  have t2 : Tool.text line "name".toList = .done [] := by unfold Tool.text; rw [p2]; rfl
  have t3 : Tool.count line "last_layer".toList 0 = .done 0 := by unfold Tool.count parseCount; rw [p3]; rfl
  have hp : Tool.parse line = .done .message := by
    subst hl
    unfold Tool.parse
    rw [t1, t2, t3]
    simp only [List.mem_cons, List.not_mem_nil, or_false] at hk
    rcases hk with rfl | rfl | rfl | rfl <;> simp [startsWithIdentifier, Outcome.bind_done, Tool.named]
  unfold command
  rw [hp]
  rfl

/-! ### An engine -/

/-- A state that is the parameters and the epoch; training replaces every value by zero. -/
def smallEngine : Engine (Parameters × Nat) where
  params := Prod.fst
  setParams n s := (n, s.2)
  train n _ s := .done (s.1.map fun l => l.map fun t => { t with data := t.data.map fun _ => some 0#32 }, s.2 + n)
  test := .done
  setEpoch n s := (s.1, n)
  reset s := .done (s.1.map fun l => l.map fun t => { t with data := t.data.map fun _ => none }, s.2)
  experiment _ := .done
  trainingStats _ s := s
  canWrite _ := true
  drawing _ _ := []

theorem smallEngine_lawful : Lawful smallEngine where
  get _ _ _ := rfl
  train _ _ _ _ h := by injection h with h; subst h; simp [smallEngine, Function.comp_def]
  test _ _ h := by injection h with h; subst h; rfl
  reset _ _ h := by injection h with h; subst h; simp [smallEngine, Function.comp_def]
  experiment _ _ _ h := by injection h with h; subst h; rfl
  setEpoch _ _ := rfl
  trainingStats _ _ := rfl

def smallWorld : World (Parameters × Nat) := ⟨([[⟨1, 1, 1, 1, [some 7#32]⟩], [⟨1, 1, 1, 1, [some 9#32]⟩]], 0), fun _ => none⟩

/-- Non-vacuity: saving, training and loading. -/
example : (match script smallEngine "save file=a\ntrain epochs=2\nload file=a\nquit\nreset".toList smallWorld with
    | .done w => some (w.state.1.map fun l => l.map (·.data), w.state.2)
    | _ => none) = some ([[[some 7#32]], [[some 9#32]]], 2) := by decide +kernel

example : Spares "a".toList "train epochs=2".toList := by
  refine ⟨by decide, fun t => by cases t <;> decide⟩

/-- A line the theorem applies to. -/
example : command smallEngine "load net.Tensor".toList smallWorld = .done (smallWorld, true) :=
  C74_nameless _ "load".toList " net.Tensor".toList (by decide) rfl (by decide) (by decide) (by decide) _ _

/-- C74: `tstat` alone enables the statistics. -/
theorem C74_tstat_alone : Tool.parse "tstat".toList = .done (.trainingStats true) := by decide

/-! ### What is read differently -/

/-- C74 (negative): the word `test` anywhere in a line draws the network for testing, also in the name of the file. -/
theorem C74_graph_misread :
    Tool.parse (Said.graph "latest.dot".toList false).text = .done (.graph "latest.dot".toList true) := by decide

/-- C74 (negative): a name that contains `last_layer=` is also read as an option. -/
theorem C74_load_misread :
    Tool.parse (Said.load "net_last_layer=3".toList none).text = .done (.load "net_last_layer=3".toList 3) := by decide

/-- C74 (negative): numbers that are none are read as zero, and negative ones as very large ones. -/
theorem C74_numbers_misread :
    Tool.parse "train epochs=ten".toList = .done (.train 0 false true) ∧
    Tool.parse "train epochs=-1".toList = .done (.train 4294967295 false true) ∧
    Tool.parse "train epoch=5".toList = .done (.train 1 false true) := by decide

/-- C74 (negative): `set epochs=5` is accepted and sets the epoch to zero. -/
theorem C74_set_epochs : Tool.parse "set epochs=5".toList = .done (.setEpoch 0) := by decide

/-- C74 (negative): a name ends at its first space, so that the file is written under another name. -/
theorem C74_space_in_name :
    Tool.parse (Said.save "my net".toList).text = .done (.save "my".toList) := by decide

/-- C74 (negative): with a space or a carriage return after it, `quit` is not recognised, so that a script with such line
ends goes on. -/
theorem C74_quit_not_recognised :
    Tool.parse "quit ".toList = .done .message ∧ Tool.parse "quit\r".toList = .done .message ∧
    Tool.parse "q ".toList = .done .message := by decide

/-- C74 (negative): only the beginnings of the words are looked at. -/
theorem C74_prefixes :
    Tool.parse "testing".toList = .done (.test false) ∧ Tool.parse "resetting".toList = .done .reset ∧
    Tool.parse "trainer epochs=3".toList = .done (.train 3 false true) := by decide

end CN24.Props
