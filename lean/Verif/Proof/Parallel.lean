import Verif.Base.ParallelRules
import Verif.Model.Parallel
import Verif.Proof.Tensor
import Verif.Proof.TensorMath

namespace CN24.Parallel
open CN24 Tensor
variable {R : Type}

/-! ### Frames -/

theorem memOf_set_val (vals : List (List R)) (idxs : List (List Nat)) {k : Nat} (hk : k < vals.length)
    (l : List R) : Mem.set (memOf vals idxs) (.val k) l = memOf (vals.set k l) idxs := by
  funext b
  cases b with
  | val j =>
    by_cases h : j = k
    · subst h
      rw [Mem.set_self]
      simp [memOf, hk]
    · rw [Mem.set_ne _ _ (by simpa using h)]
      simp [memOf, List.getElem?_set_ne (Ne.symm h)]
  | idx j => rw [Mem.set_ne _ _ (by simp)]; rfl

theorem memOf_set_idx (vals : List (List R)) (idxs : List (List Nat)) {k : Nat} (hk : k < idxs.length)
    (l : List Nat) : Mem.set (memOf vals idxs) (.idx k) l = memOf vals (idxs.set k l) := by
  funext b
  cases b with
  | idx j =>
    by_cases h : j = k
    · subst h
      rw [Mem.set_self]
      simp [memOf, hk]
    · rw [Mem.set_ne _ _ (by simpa using h)]
      simp [memOf, List.getElem?_set_ne (Ne.symm h)]
  | val j => rw [Mem.set_ne _ _ (by simp)]; rfl

/-- One tensor is written, it is buffer 0. -/
@[reducible] def frame1 (t0 : Tensor R) (vals : List (List R)) (idxs : List (List Nat)) :
    Frame (Cell R) (Tensor R) where
  mem t := memOf (t.data :: vals) idxs
  inv t := Sh t0 t
  m0 := memOf (t0.data :: vals) idxs
  ro b := b ≠ .val 0
  const := by
    intro s _ b hb
    cases b with
    | val k =>
      cases k with
      | zero => exact absurd rfl hb
      | succ k => rfl
    | idx k => rfl

section
variable {t0 : Tensor R} {vals : List (List R)} {idxs : List (List Nat)} {W : Buf → Nat → Prop}

theorem load1 (k i : Nat) : Evals (frame1 t0 vals idxs) (load (k + 1) i) (rd (vals.getD k []) i) :=
  Evals.get (F := frame1 t0 vals idxs) (b := Buf.val (k + 1)) (by simp)

theorem loadIdx1 (k i : Nat) : Evals (frame1 t0 vals idxs) (loadIdx k i) (rd (idxs.getD k []) i) :=
  Evals.get (F := frame1 t0 vals idxs) (b := Buf.idx k) (by simp)

theorem store1 {i : Nat} (v : R) (hW : W (.val 0) i) :
    Runs (frame1 t0 vals idxs) W (store 0 i v) fun t => t.putElem i v := by
  refine Runs.put (F := frame1 t0 vals idxs) (b := Buf.val 0) (by simp) hW (fun s _ => ?_) fun s s' hs h => ?_
  · unfold putElem
    show (wr s.data i v).map _ = _
    cases wr s.data i v with
    | none => rfl
    | some l => simp [memOf_set_val]
  · unfold putElem at h
    rw [Option.map_eq_some_iff] at h
    obtain ⟨d, _, rfl⟩ := h
    exact hs

theorem store1' {x y m s : Nat} (v : R) (hW : W (.val 0) (t0.offset x y m s)) :
    Runs (frame1 t0 vals idxs) W (store 0 (t0.offset x y m s) v) fun t => t.put x y m s v := by
  refine (store1 v hW).congr fun t ht => ?_
  unfold put putElem
  rw [Sh.offset ht]

theorem modify1 {i : Nat} (f : R → R) (hW : W (.val 0) i) :
    Runs (frame1 t0 vals idxs) W (modify 0 i f) fun t => (rd t.data i).bind fun v => t.putElem i (f v) :=
  Runs.own (F := frame1 t0 vals idxs) (b := Buf.val 0) hW fun v => store1 (f v) hW

end

/-- The elements of one sample. -/
def inSample (t : Tensor R) (s : Nat) (b : Buf) (k : Nat) : Prop :=
  b = .val 0 ∧ s * (t.maps * t.width * t.height) ≤ k ∧ k < (s + 1) * (t.maps * t.width * t.height)

theorem interval_disjoint {E i j k : Nat} (hij : i ≠ j) (h1 : i * E ≤ k) (h2 : k < (i + 1) * E)
    (h3 : j * E ≤ k) (h4 : k < (j + 1) * E) : False := by
  rcases Nat.lt_or_gt_of_ne hij with h | h
  · have : (i + 1) * E ≤ j * E := Nat.mul_le_mul_right _ h
    omega
  · have : (j + 1) * E ≤ i * E := Nat.mul_le_mul_right _ h
    omega

theorem inSample_disjoint (t : Tensor R) {i j : Nat} (hij : i ≠ j) (b : Buf) (k : Nat)
    (h1 : inSample t i b k) : ¬ inSample t j b k :=
  fun h2 => interval_disjoint hij h1.2.1 h1.2.2 h2.2.1 h2.2.2

theorem offset_bounds {α : Type} (t : Tensor α) {x y m : Nat} (s : Nat) (hx : x < t.width)
    (hy : y < t.height) (hm : m < t.maps) :
    s * (t.maps * t.width * t.height) ≤ t.offset x y m s ∧
      t.offset x y m s < (s + 1) * (t.maps * t.width * t.height) := by
  have e : t.offset x y m s = s * (t.maps * t.width * t.height) + t.offset x y m 0 := by
    simp only [offset, Nat.zero_mul]; ring
  have h : t.offset x y m 0 < ({ t with samples := 1 } : Tensor α).elements :=
    offset_lt (t := { t with samples := 1 }) ⟨hx, hy, hm, Nat.one_pos⟩
  have h' : ({ t with samples := 1 } : Tensor α).elements = t.maps * t.width * t.height := by
    simp [elements]
  rw [h'] at h
  rw [e, Nat.add_mul, Nat.one_mul]
  omega

theorem inSample_offset (t : Tensor R) {x y m : Nat} (s : Nat) (hx : x < t.width)
    (hy : y < t.height) (hm : m < t.maps) : inSample t s (.val 0) (t.offset x y m s) :=
  ⟨rfl, offset_bounds t s hx hy hm⟩

/-- The elements of one row of a matrix. -/
def inRow (base ld i : Nat) (b : Buf) (k : Nat) : Prop :=
  b = .val 0 ∧ base + ld * i ≤ k ∧ k < base + ld * (i + 1)

/-- One element. -/
def isElement (base inc i : Nat) (b : Buf) (k : Nat) : Prop := b = .val 0 ∧ k = base + i * inc

/-! ### src/math/TensorMath.cpp -/

theorem gemm_schedule [CommRing R] [DecidableEq R] (tA tB : Bool) (M N K : Nat) (alpha : R)
    (A : Tensor R) (smA ldA : Nat) (B : Tensor R) (smB ldB : Nat) (beta : R) (C C' : Tensor R)
    (smC ldC : Nat) (hld : N ≤ ldC)
    (h : TensorMath.gemm true tA tB M N K alpha A smA ldA B smB ldB beta C smC ldC = .done C') :
    EverySchedule (fun i : Fin M => gemmRow tA tB N K alpha A smA ldA B smB ldB beta C smC ldC i)
      (memOf [C.data, A.data, B.data] []) (memOf [C'.data, A.data, B.data] []) := by
  rw [TensorMath.gemm, if_neg (by simp), Outcome.ofOption_eq_done] at h
  refine everySchedule_of_runs (frame1 C [A.data, B.data] [])
    (W := inRow (C.offset 0 0 0 smC) ldC)
    (fun i hi => ?_) (fun i j _ _ hij b k h1 h2 => ?_) (Sh.rfl' C) rfl h
  · refine Runs.loop fun j hj => ?_
    have hW : inRow (C.offset 0 0 0 smC) ldC i (.val 0) (C.offset 0 0 0 smC + (ldC * i + j)) := by
      refine ⟨rfl, ?_⟩
      rw [Nat.mul_add, Nat.mul_one]; omega
    refine Runs.eval (Evals.loop fun k s hk => ?_) fun sum _ => ?_
    · exact (load1 0 _).bind fun a _ => (load1 1 _).map _
    · refine Runs.ite (fun _ => ?_) fun _ => ?_
      · exact (store1 _ hW).congr fun u hu => by rw [Sh.offset hu]
      · exact (modify1 _ hW).congr fun u hu => by rw [Sh.offset hu]
  · obtain ⟨_, h1, h1'⟩ := h1
    obtain ⟨_, h2, h2'⟩ := h2
    refine interval_disjoint (E := ldC) (k := k - C.offset 0 0 0 smC) hij ?_ ?_ ?_ ?_ <;>
      · rw [Nat.mul_comm]; omega

theorem gemv_schedule [CommRing R] [DecidableEq R] (tA : Bool) (M N : Nat) (alpha : R)
    (A : Tensor R) (smA ldA : Nat) (X : Tensor R) (smX incX : Nat) (beta : R) (Y Y' : Tensor R)
    (smY incY : Nat) (hinc : 0 < incY)
    (h : TensorMath.gemv true tA M N alpha A smA ldA X smX incX beta Y smY incY = .done Y') :
    EverySchedule (fun i : Fin M => gemvRow tA N alpha A smA ldA X smX incX beta Y smY incY i)
      (memOf [Y.data, A.data, X.data] []) (memOf [Y'.data, A.data, X.data] []) := by
  rw [TensorMath.gemv, if_neg (by simp), Outcome.ofOption_eq_done] at h
  refine everySchedule_of_runs (frame1 Y [A.data, X.data] [])
    (W := isElement (Y.offset 0 0 0 smY) incY)
    (fun i hi => ?_) (fun i j _ _ hij b k h1 h2 => ?_) (Sh.rfl' Y) rfl h
  · refine Runs.eval (Evals.loop fun k s hk => ?_) fun sum _ => ?_
    · exact (load1 0 _).bind fun a _ => (load1 1 _).map _
    · refine Runs.ite (fun _ => ?_) fun _ => ?_
      · exact (store1 _ (W := isElement (Y.offset 0 0 0 smY) incY i) ⟨rfl, rfl⟩).congr fun u hu => by rw [Sh.offset hu]
      · exact (modify1 _ (W := isElement (Y.offset 0 0 0 smY) incY i) ⟨rfl, rfl⟩).congr fun u hu => by
          rw [Sh.offset hu]
  · have : i * incY = j * incY := by
      have := h1.2.symm.trans h2.2
      omega
    exact hij (Nat.eq_of_mul_eq_mul_right hinc this)

theorem add_schedule [CommRing R] (a b t t' : Tensor R)
    (h : TensorMath.add a b t = .done t') :
    EverySchedule (fun e : Fin a.elements => addElement e)
      (memOf [t.data, a.data, b.data] []) (memOf [t'.data, a.data, b.data] []) := by
  rw [TensorMath.add] at h
  split at h
  · cases h
  rw [Outcome.ofOption_eq_done] at h
  refine everySchedule_of_runs (frame1 t [a.data, b.data] [])
    (W := fun i b k => b = .val 0 ∧ k = i)
    (fun e he => ?_) (fun i j _ _ hij b k h1 h2 => hij (h1.2.symm.trans h2.2)) (Sh.rfl' t) rfl h
  exact Runs.eval (load1 0 _) fun x _ => Runs.eval (load1 1 _) fun y _ => store1 _ (by exact ⟨rfl, rfl⟩)

/-! ### src/net/ActivationFunctions.cpp -/

theorem map_schedule (n : Nat) (f : R → R) (source t t' : Tensor R)
    (h : Activations.elementwise n (fun e => (rd source.data e).map f) t = some t') :
    EverySchedule (fun e : Fin n => mapElement f e)
      (memOf [t.data, source.data] []) (memOf [t'.data, source.data] []) := by
  refine everySchedule_of_runs (frame1 t [source.data] [])
    (W := fun i b k => b = .val 0 ∧ k = i) (f := fun e t => (rd source.data e).bind fun v =>
      t.putElem e (f v))
    (fun e he => ?_) (fun i j _ _ hij b k h1 h2 => hij (h1.2.symm.trans h2.2)) (Sh.rfl' t) rfl ?_
  · exact Runs.eval (load1 0 _) fun x _ => store1 _ (by exact ⟨rfl, rfl⟩)
  · rw [← h, Activations.elementwise]
    refine congrArg (forLoop n · t) ?_
    funext e t
    cases rd source.data e <;> rfl

theorem map2_schedule (n : Nat) (f : R → R → R) (a b t t' : Tensor R)
    (h : Activations.elementwise n (fun e => (rd a.data e).bind fun d =>
      (rd b.data e).map fun o => f d o) t = some t') :
    EverySchedule (fun e : Fin n => map2Element f e)
      (memOf [t.data, a.data, b.data] []) (memOf [t'.data, a.data, b.data] []) := by
  refine everySchedule_of_runs (frame1 t [a.data, b.data] [])
    (W := fun i b k => b = .val 0 ∧ k = i) (f := fun e t => (rd a.data e).bind fun d =>
      (rd b.data e).bind fun o => t.putElem e (f d o))
    (fun e he => ?_) (fun i j _ _ hij b k h1 h2 => hij (h1.2.symm.trans h2.2)) (Sh.rfl' t) rfl ?_
  · exact Runs.eval (load1 0 _) fun x _ => Runs.eval (load1 1 _) fun y _ => store1 _ (by exact ⟨rfl, rfl⟩)
  · rw [← h, Activations.elementwise]
    refine congrArg (forLoop n · t) ?_
    funext e t
    cases rd a.data e with
    | none => rfl
    | some d => cases rd b.data e <;> rfl

theorem softmax_schedule [Field R] (exp : R → R) (input t t' : Tensor R) (hw : input.width ≤ t.width)
    (hh : 0 < t.height) (hm : 0 < t.maps)
    (h : Activations.softmaxForward exp input t = some t') :
    EverySchedule (fun s : Fin input.samples => softmaxSample exp input t s)
      (memOf [t.data, input.data] []) (memOf [t'.data, input.data] []) := by
  refine everySchedule_of_runs (frame1 t [input.data] []) (W := inSample t)
    (fun s hs => ?_) (fun i j _ _ hij b k h1 => inSample_disjoint t hij b k h1) (Sh.rfl' t) rfl h
  refine Runs.eval (Evals.loop fun e sum he => ?_) fun sum _ => ?_
  · exact (load1 0 _).map _
  · refine Runs.loop fun e he => ?_
    exact Runs.eval (load1 0 _) fun v _ =>
      store1' _ (inSample_offset t s (by omega) hh hm)

/-! ### Layers that move data -/

theorem memcpy_runs {t0 : Tensor R} {vals : List (List R)} {idxs : List (List Nat)}
    {W : Buf → Nat → Prop} (source : Tensor R) (hv : vals.getD 0 [] = source.data) (src dst n : Nat)
    (hW : ∀ i, i < n → W (.val 0) (dst + i)) :
    Runs (frame1 t0 vals idxs) W (memcpyP src dst n) fun t => memcpy source src t dst n := by
  refine Runs.loop (f := fun i (t : Tensor R) => (rd source.data (src + i)).bind fun v =>
    t.putElem (dst + i) v) fun i hi => ?_
  refine Runs.eval ((load1 0 _).congr (by rw [hv])) fun v _ => store1 _ (hW i hi)

theorem offset_shift {α : Type} (t : Tensor α) (x y m s i : Nat) :
    t.offset x y m s + i = t.offset (x + i) y m s := by
  simp only [offset]; omega

theorem putElem_sh {t u : Tensor R} {i : Nat} {v : R} (h : t.putElem i v = some u) : Sh t u := by
  unfold putElem at h
  rw [Option.map_eq_some_iff] at h
  obtain ⟨d, _, rfl⟩ := h
  exact ⟨rfl, rfl, rfl, rfl⟩

theorem clear_sh {t u : Tensor R} {v : R} (h : t.clear v none = some u) : Sh t u :=
  forLoop_inv_of_eq (fun _ u => Sh t u) h (Sh.rfl' t) fun _ _ _ _ hs hp => hs.trans (putElem_sh hp)

theorem resizeForward_schedule [Zero R] (bx by' : Nat) (input t t' : Tensor R)
    (hm : input.maps ≤ t.maps) (hw : input.width + bx = t.width) (hh : input.height + by' = t.height)
    (h : Layers.resizeForward bx by' input t = some t') :
    ∃ c, t.clear 0 none = some c ∧
      EverySchedule (fun s : Fin input.samples => resizeForwardSample bx by' input t s)
        (memOf [c.data, input.data] []) (memOf [t'.data, input.data] []) := by
  rw [Layers.resizeForward, Option.bind_eq_some_iff] at h
  obtain ⟨c, hc, h⟩ := h
  refine ⟨c, hc, ?_⟩
  have hs := clear_sh hc
  have key := everySchedule_of_runs (frame1 c [input.data] []) (W := inSample c)
    (P := fun s => resizeForwardSample bx by' input t s)
    (fun s hsm => ?_) (fun i j _ _ hij b k h1 => inSample_disjoint c hij b k h1) (Sh.rfl' c) rfl h
  · exact key
  · refine Runs.loop fun m hm' => Runs.loop fun y hy => ?_
    refine Runs.congr (memcpy_runs input rfl _ _ _ fun i hi => ?_) fun u hu => ?_
    · rw [offset_shift, ← Sh.offset hs]
      obtain ⟨_, h2, h3, h4⟩ := hs
      exact inSample_offset c s (by omega) (by omega) (by omega)
    · rw [Sh.offset (hs.trans hu)]

theorem resizeBackward_schedule [Zero R] (bx by' : Nat) (outputDelta t t' : Tensor R)
    (h : Layers.resizeBackward bx by' true outputDelta t = some t') :
    ∃ c, t.clear 0 none = some c ∧
      EverySchedule (fun s : Fin t.samples => resizeBackwardSample bx by' outputDelta t s)
        (memOf [c.data, outputDelta.data] []) (memOf [t'.data, outputDelta.data] []) := by
  rw [Layers.resizeBackward, if_pos rfl, Option.bind_eq_some_iff] at h
  obtain ⟨c, hc, h⟩ := h
  refine ⟨c, hc, ?_⟩
  have hs := clear_sh hc
  have key := everySchedule_of_runs (frame1 c [outputDelta.data] []) (W := inSample c)
    (P := fun s => resizeBackwardSample bx by' outputDelta t s)
    (fun s hsm => ?_) (fun i j _ _ hij b k h1 => inSample_disjoint c hij b k h1) (Sh.rfl' c) rfl h
  · exact key
  · refine Runs.loop fun m hm' => Runs.loop fun y hy => ?_
    refine Runs.congr (memcpy_runs outputDelta rfl _ _ _ fun i hi => ?_) fun u hu => ?_
    · rw [offset_shift, ← Sh.offset hs]
      obtain ⟨_, h2, h3, h4⟩ := hs
      exact inSample_offset c s (by omega) (by omega) (by omega)
    · rw [Sh.offset (hs.trans hu)]

/-! ### Several written tensors -/

/-- A part of a state. -/
structure Lens (S A : Type) where
  get : S → A
  set : S → A → S
  get_set : ∀ s a, get (set s a) = a
  set_set : ∀ s a b, set (set s a) b = set s b
  set_get : ∀ s, set s (get s) = s

/-- A computation on a part of the state. -/
def Lens.lift {S A : Type} (L : Lens S A) (f : A → Option A) (s : S) : Option S :=
  (f (L.get s)).map (L.set s)

section
variable {S A : Type} (L : Lens S A)

theorem Lens.lift_some : L.lift some = some := by
  funext s; simp [Lens.lift, L.set_get]

theorem Lens.lift_bind (f g : A → Option A) (s : S) :
    L.lift (fun a => (f a).bind g) s = (L.lift f s).bind (L.lift g) := by
  unfold Lens.lift
  dsimp only
  cases f (L.get s) with
  | none => rfl
  | some a =>
    simp only [Option.bind_some, Option.map_some, L.get_set]
    cases g a with
    | none => rfl
    | some b => simp [L.set_set]

theorem Lens.lift_loop (n : Nat) (f : Nat → A → Option A) (s : S) :
    L.lift (forLoop n f) s = forLoop n (fun i => L.lift (f i)) s := by
  induction n with
  | zero => exact congrFun L.lift_some s
  | succ n ih =>
    rw [forLoop_succ, ← ih, ← L.lift_bind]
    rfl

/-- The tensor `l` of the state, of the shape of `t0`. -/
structure Part (F : Frame (Cell R) S) (l : Nat) (t0 : Tensor R) (L : Lens S (Tensor R)) : Prop where
  rw : ¬ F.ro (.val l)
  data : ∀ s, F.inv s → F.mem s (.val l) = (L.get s).data
  sh : ∀ s, F.inv s → Sh t0 (L.get s)
  mem_set : ∀ s (d : List R), F.inv s → Mem.set (F.mem s) (.val l) d = F.mem (L.set s { L.get s with data := d })
  inv_set : ∀ s u, F.inv s → Sh t0 u → F.inv (L.set s u)

end

namespace Part
variable {S : Type} {F : Frame (Cell R) S} {l : Nat} {t0 : Tensor R} {L : Lens S (Tensor R)}
  {W : Buf → Nat → Prop}

theorem store (hp : Part F l t0 L) {i : Nat} (v : R) (hW : W (.val l) i) :
    Runs F W (Parallel.store l i v) (L.lift fun t => t.putElem i v) := by
  refine Runs.put (b := Buf.val l) hp.rw hW (fun s hs => ?_) fun s s' hs h => ?_
  · rw [hp.data s hs]
    unfold Lens.lift putElem
    dsimp only
    cases wr (L.get s).data i v with
    | none => rfl
    | some d => simp [hp.mem_set s d hs]
  · unfold Lens.lift at h
    rw [Option.map_eq_some_iff] at h
    obtain ⟨u, hu, rfl⟩ := h
    exact hp.inv_set s u hs ((hp.sh s hs).trans (putElem_sh hu))

theorem store' (hp : Part F l t0 L) {x y m s : Nat} (v : R) (hW : W (.val l) (t0.offset x y m s)) :
    Runs F W (Parallel.store l (t0.offset x y m s) v) (L.lift fun t => t.put x y m s v) := by
  refine (hp.store v hW).congr fun st hst => ?_
  unfold Lens.lift put putElem
  dsimp only
  rw [Sh.offset (hp.sh st hst)]

theorem loop {n : Nat} {p : Nat → Prog (Cell R) Unit} {f : Nat → Tensor R → Option (Tensor R)}
    (h : ∀ i, i < n → Runs F W (p i) (L.lift (f i))) :
    Runs F W (Prog.loop' n p) (L.lift (forLoop n f)) :=
  (Runs.loop h).congr fun s _ => (L.lift_loop n f s).symm

theorem seq {p q : Prog (Cell R) Unit} {f g : Tensor R → Option (Tensor R)}
    (hp : Runs F W p (L.lift f)) (hq : Runs F W q (L.lift g)) :
    Runs F W (p.bind fun _ => q) (L.lift fun t => (f t).bind g) :=
  (Runs.seq hp hq).congr fun s _ => (L.lift_bind f g s).symm

theorem eval {β : Type} {p : Prog (Cell R) β} {q : β → Prog (Cell R) Unit} {e : Option β}
    {f : β → Tensor R → Option (Tensor R)} (hp : Evals F p e)
    (hq : ∀ b, e = some b → Runs F W (q b) (L.lift (f b))) :
    Runs F W (p.bind q) (L.lift fun t => e.bind fun b => f b t) :=
  (Runs.eval hp hq).congr fun s _ => by
    unfold Lens.lift
    cases e <;> rfl

theorem ret : Runs F W (Prog.ret ()) (L.lift some) := by
  rw [L.lift_some]; exact Runs.ret

end Part

/-- The elements of one sample of the tensor in buffer `l`. -/
def inSampleOf (l : Nat) (t : Tensor R) (s : Nat) (b : Buf) (k : Nat) : Prop :=
  b = .val l ∧ s * (t.maps * t.width * t.height) ≤ k ∧ k < (s + 1) * (t.maps * t.width * t.height)

theorem inSampleOf_offset (l : Nat) (t : Tensor R) {x y m : Nat} (s : Nat) (hx : x < t.width)
    (hy : y < t.height) (hm : m < t.maps) : inSampleOf l t s (.val l) (t.offset x y m s) :=
  ⟨rfl, offset_bounds t s hx hy hm⟩

theorem offset_linear {α : Type} (t : Tensor α) (m s : Nat) {i : Nat} (hi : i < t.width * t.height) :
    t.offset 0 0 m s + i = t.offset (i % t.width) (i / t.width) m s ∧ i % t.width < t.width ∧
      i / t.width < t.height := by
  have hw : 0 < t.width := by
    rcases Nat.eq_zero_or_pos t.width with h | h
    · rw [h, Nat.zero_mul] at hi; omega
    · exact h
  refine ⟨?_, Nat.mod_lt _ hw, Nat.div_lt_of_lt_mul hi⟩
  simp only [offset]
  have := Nat.mod_add_div i t.width
  rw [Nat.mul_comm (i / t.width)]
  omega

/-- `CopyMap` writes the target map of the target sample. -/
theorem copyMap_runs [Zero R] {S : Type} {F : Frame (Cell R) S} {k l : Nat} {target : Tensor R}
    {L : Lens S (Tensor R)} {W : Buf → Nat → Prop} (hp : Part F l target L) (source : Tensor R)
    (hk : F.ro (.val k)) (hd : F.m0 (.val k) = source.data) (ss sm ts tm : Nat)
    (hW : ∀ x y, x < target.width → y < target.height → W (.val l) (target.offset x y tm ts)) :
    Runs F W (copyMapP k l source ss sm target ts tm)
      (L.lift fun t => (copyMap source ss sm t ts tm).map (·.2)) := by
  have hl : ∀ i, Evals F (load k i) (rd source.data i) := fun i =>
    (Evals.get (b := Buf.val k) hk).congr (by rw [hd])
  have hcongr : ∀ {p : Prog (Cell R) Unit} {f g : Tensor R → Option (Tensor R)},
      Runs F W p (L.lift f) → (∀ t, Sh target t → f t = g t) → Runs F W p (L.lift g) := by
    intro p f g h hfg
    refine h.congr fun s hs => ?_
    unfold Lens.lift
    rw [hfg _ (hp.sh s hs)]
  unfold copyMapP
  by_cases h1 : ss ≥ source.samples ∨ ts ≥ target.samples
  · rw [if_pos h1]
    refine hcongr Part.ret fun t ht => ?_
    have h1' : ss ≥ source.samples ∨ ts ≥ t.samples := by rw [ht.1] at h1; exact h1
    unfold copyMap
    rw [if_pos h1']; rfl
  rw [if_neg h1]
  by_cases h2 : source.width ≠ target.width ∨ source.height ≠ target.height
  · rw [if_pos h2]
    by_cases h3 : target.width < source.width ∨ target.height < source.height
    · rw [if_pos h3]
      refine hcongr Part.ret fun t ht => ?_
      obtain ⟨e1, e2, e3, e4⟩ := ht
      rw [e1] at h1
      rw [e2, e3] at h2 h3
      unfold copyMap
      rw [if_neg h1, if_pos h2, if_pos h3]; rfl
    · rw [if_neg h3]
      refine hcongr (f := fun t => (forLoop source.height (fun y t =>
          (forLoop source.width (fun x t =>
            (rd source.data (source.offset x y sm ss)).bind fun v => t.put x y tm ts v) t).bind
          (forLoop (target.width - source.width) (fun x t =>
            t.put (source.width + x) y tm ts 0))) t).bind
        (forLoop (target.height - source.height) (fun y => forLoop target.width
          (fun x t => t.put x (source.height + y) tm ts 0)))) ?_ fun t ht => ?_
      · refine Part.seq (Part.loop fun y hy => Part.seq (Part.loop fun x hx => ?_)
          (Part.loop fun x hx => ?_)) (Part.loop fun y hy => Part.loop fun x hx => ?_)
        · exact Part.eval (hl _) fun v _ => hp.store' v (hW _ _ (by omega) (by omega))
        · exact hp.store' 0 (hW _ _ (by omega) (by omega))
        · exact hp.store' 0 (hW _ _ (by omega) (by omega))
      · obtain ⟨e1, e2, e3, e4⟩ := ht
        rw [e1] at h1
        unfold copyMap
        rw [if_neg h1, if_pos (by rw [← e2, ← e3]; exact h2), if_neg (by rw [← e2, ← e3]; exact h3)]
        simp only [forRange, ← e2, ← e3, Option.map_bind]
        congr 1
        funext u
        simp [Function.comp_def]
  · rw [if_neg h2]
    have e : source.width = target.width ∧ source.height = target.height := by omega
    refine hcongr (f := forLoop (source.width * source.height) (fun i t =>
      (rd source.data (source.offset 0 0 sm ss + i)).bind fun v =>
        t.putElem (target.offset 0 0 tm ts + i) v)) ?_ fun t ht => ?_
    · refine Part.loop fun i hi => Part.eval (hl _) fun v _ => hp.store v ?_
      rw [e.1, e.2] at hi
      obtain ⟨h3, h4, h5⟩ := offset_linear target tm ts hi
      rw [h3]; exact hW _ _ h4 h5
    · have ho := Sh.offset ht 0 0 tm ts
      obtain ⟨e1, e2, e3, e4⟩ := ht
      rw [e1] at h1
      unfold copyMap
      rw [if_neg h1, if_neg (by rw [← e2, ← e3]; exact h2), ho, Option.map_map]
      simp [Function.comp_def]

/-- The whole state. -/
@[reducible] def idLens (A : Type) : Lens A A := ⟨fun s => s, fun _ u => u, fun _ _ => rfl, fun _ _ _ => rfl, fun _ => rfl⟩

theorem lift_id {A : Type} (f : A → Option A) : (idLens A).lift f = f := by
  funext s
  unfold Lens.lift
  cases f s <;> rfl

theorem part1 (t0 : Tensor R) (vals : List (List R)) (idxs : List (List Nat)) :
    Part (frame1 t0 vals idxs) 0 t0 (idLens _) :=
  ⟨by simp, fun _ _ => rfl, fun _ h => h, fun s d _ => by simp [memOf_set_val],
    fun _ _ _ h => h⟩

/-- `CopyMap` into the only written tensor. -/
theorem copyMap1 [Zero R] {t0 : Tensor R} {vals : List (List R)} {idxs : List (List Nat)} (k : Nat)
    (source : Tensor R) (hd : vals.getD k [] = source.data) (ss sm ts tm : Nat) {W : Buf → Nat → Prop}
    (hW : ∀ x y, x < t0.width → y < t0.height → W (.val 0) (t0.offset x y tm ts)) :
    Runs (frame1 t0 vals idxs) W (copyMapP (k + 1) 0 source ss sm t0 ts tm)
      (fun t => (copyMap source ss sm t ts tm).map (·.2)) := by
  have := copyMap_runs (part1 t0 vals idxs) source (k := k + 1) (by simp) hd ss sm ts tm hW
  rw [lift_id] at this
  exact this

theorem concatForward_schedule [Zero R] (a b t t' : Tensor R) (hm : t.maps = a.maps + b.maps)
    (h : Layers.concatForward a b t = some t') :
    EverySchedule (fun s : Fin a.samples => concatForwardSample a b t s)
      (memOf [t.data, a.data, b.data] []) (memOf [t'.data, a.data, b.data] []) := by
  refine everySchedule_of_runs (frame1 t [a.data, b.data] []) (W := inSample t)
    (fun s hs => ?_) (fun i j _ _ hij b k h1 => inSample_disjoint t hij b k h1) (Sh.rfl' t) rfl h
  refine Runs.seq (Runs.loop fun m hm' => ?_) (Runs.loop fun m hm' => ?_)
  · exact copyMap1 0 a rfl s m s m fun x y hx hy => inSample_offset t s hx hy (by omega)
  · exact copyMap1 1 b rfl s m s (a.maps + m) fun x y hx hy => inSample_offset t s hx hy (by omega)

theorem spatialForward_schedule [Field R] (input t t' : Tensor R) (hm : t.maps = input.maps + 2)
    (hw : input.width ≤ t.width) (hh : input.height ≤ t.height)
    (h : Layers.spatialForward input t = some t') :
    ∃ c, t.clear 1 none = some c ∧
      EverySchedule (fun s : Fin input.samples => spatialForwardSample input c s)
        (memOf [c.data, input.data] []) (memOf [t'.data, input.data] []) := by
  rw [Layers.spatialForward, Option.bind_eq_some_iff] at h
  obtain ⟨c, hc, h⟩ := h
  refine ⟨c, hc, ?_⟩
  obtain ⟨_, e2, e3, e4⟩ := clear_sh hc
  rw [e4] at hm
  rw [e2] at hw
  rw [e3] at hh
  refine everySchedule_of_runs (frame1 c [input.data] []) (W := inSample c)
    (fun s hs => ?_) (fun i j _ _ hij b k h1 => inSample_disjoint c hij b k h1) (Sh.rfl' c) rfl h
  refine Runs.seq ?_ (Runs.loop fun y hy => Runs.loop fun x hx => ?_)
  · refine Runs.loopRange (p := fun m => Prog.loop' input.height fun _ =>
      copyMapP 1 0 input s (m - 2) c s m) fun m h1 h2 => Runs.loop fun y hy => ?_
    exact copyMap1 0 input rfl s (m - 2) s m fun x y hx hy => inSample_offset c s hx hy (by omega)
  · exact Runs.seq (store1' _ (inSample_offset c s (by omega) (by omega) (by omega)))
      (store1' _ (inSample_offset c s (by omega) (by omega) (by omega)))

theorem spatialBackward_schedule [Zero R] (outputDelta t t' : Tensor R)
    (h : Layers.spatialBackward outputDelta t = some t') :
    EverySchedule (fun s : Fin t.samples => spatialBackwardSample outputDelta t s)
      (memOf [t.data, outputDelta.data] []) (memOf [t'.data, outputDelta.data] []) := by
  refine everySchedule_of_runs (frame1 t [outputDelta.data] []) (W := inSample t)
    (fun s hs => ?_) (fun i j _ _ hij b k h1 => inSample_disjoint t hij b k h1) (Sh.rfl' t) rfl h
  refine Runs.loopRange (p := fun m => Prog.loop' t.height fun _ =>
    copyMapP 1 0 outputDelta s m t s (m - 2)) fun m h1 h2 => Runs.loop fun y hy => ?_
  exact copyMap1 0 outputDelta rfl s m s (m - 2) fun x y hx hy => inSample_offset t s hx hy (by omega)

theorem accumulate_schedule [AddZeroClass R] (outputDeltas : List (Tensor R)) (t t' : Tensor R)
    (h : Layers.accumulate outputDeltas t = some t') :
    ∃ c, t.clear 0 none = some c ∧
      EverySchedule (fun s : Fin t.samples => accumulateSample outputDeltas.length t s)
        (memOf (c.data :: outputDeltas.map (·.data)) [])
        (memOf (t'.data :: outputDeltas.map (·.data)) []) := by
  rw [Layers.accumulate, Option.bind_eq_some_iff] at h
  obtain ⟨c, hc, h⟩ := h
  refine ⟨c, hc, ?_⟩
  obtain ⟨_, e2, e3, e4⟩ := clear_sh hc
  refine everySchedule_of_runs (frame1 c (outputDeltas.map (·.data)) []) (W := inSample c)
    (fun s hs => ?_) (fun i j _ _ hij b k h1 => inSample_disjoint c hij b k h1) (Sh.rfl' c) rfl h
  refine Runs.loop fun e he => Runs.loop fun i hi => ?_
  have hW : inSample c s (.val 0) (s * (t.width * t.height * t.maps) + e) := by
    have : c.maps * c.width * c.height = t.width * t.height * t.maps := by
      rw [← e2, ← e3, ← e4]; ring
    refine ⟨rfl, ?_⟩
    rw [this, Nat.add_mul, Nat.one_mul]
    omega
  refine Runs.congr (Runs.eval (load1 i _) fun w _ => modify1 _ hW) fun u hu => ?_
  have hl : (outputDeltas.map (·.data)).getD i [] = outputDeltas[i].data := by simp [hi]
  rw [hl]
  have hr : rd outputDeltas i = some outputDeltas[i] := rd_eq_some hi
  rw [hr, Option.bind_some]
  cases rd u.data (s * (t.width * t.height * t.maps) + e) with
  | none => cases rd outputDeltas[i].data (s * (t.width * t.height * t.maps) + e) <;> rfl
  | some v => rfl

theorem im2col_schedule [CommRing R] (c : TensorMath.ColShape) (source t t' : Tensor R)
    (ht : c.FitsTarget t) (h : TensorMath.im2col c source t = .done t') :
    EverySchedule (fun s : Fin c.samples => im2colSample c source t s)
      (memOf [t.data, source.data] []) (memOf [t'.data, source.data] []) := by
  rw [TensorMath.im2col] at h
  split at h
  · cases h
  split at h
  · cases h
  rw [Outcome.ofOption_eq_done] at h
  have h1 : c.targetHeight.toNat = t.height := by have := ht.2.2.2.2; omega
  have h2 : c.targetWidth.toNat = t.width := by have := ht.2.2.2.1; omega
  refine everySchedule_of_runs (frame1 t [source.data] [])
    (W := fun s b k => b = .val 0 ∧ ∃ ox oy tm, t.InRange ox oy s tm ∧ k = t.offset ox oy s tm)
    (fun s hs => ?_) (fun i j _ _ hij b k h1 h2 => ?_) (Sh.rfl' t) rfl h
  · refine Runs.loop fun tm htm => Runs.loop fun oy hoy => ?_
    have hW : ∀ ox, ox < c.targetWidth.toNat → ∃ ox' oy' tm', t.InRange ox' oy' s tm' ∧
        t.offset 0 0 0 tm + c.targetIndex s oy ox = t.offset ox' oy' s tm' := fun ox hox =>
      ⟨ox, oy, tm, ⟨by omega, by omega, by rw [ht.2.2.1]; exact hs, by rw [ht.2.1]; exact htm⟩,
        TensorMath.target_index ht s tm oy ox⟩
    have hst : ∀ ox v, ox < c.targetWidth.toNat → Runs (frame1 t [source.data] [])
        (fun b k => b = .val 0 ∧ ∃ ox oy tm, t.InRange ox oy s tm ∧ k = t.offset ox oy s tm)
        (store 0 (t.offset 0 0 0 tm + c.targetIndex s oy ox) v)
        (fun u => u.putElem (u.offset 0 0 0 tm + c.targetIndex s oy ox) v) := fun ox v hox =>
      (store1 v ⟨rfl, hW ox hox⟩).congr fun u hu => by rw [Sh.offset hu]
    by_cases hy : 0 ≤ c.iy tm oy ∧ c.iy tm oy < c.sourceHeight
    · rw [if_pos hy, if_pos hy]
      refine Runs.loop fun ox hox => Runs.ite (fun _ => ?_) fun _ => hst ox 0 hox
      exact Runs.eval (load1 0 _) fun v _ => hst ox v hox
    · rw [if_neg hy, if_neg hy]
      exact Runs.loop fun ox hox => hst ox 0 hox
  · obtain ⟨_, ox, oy, tm, r1, e1⟩ := h1
    obtain ⟨_, ox', oy', tm', r2, e2⟩ := h2
    exact hij (offset_inj t r1 r2 (e1.symm.trans e2)).2.2.1

/-- Two tensors are written, buffers 0 and 1. -/
@[reducible] def frame2 (a0 b0 : Tensor R) (vals : List (List R)) : Frame (Cell R) (Tensor R × Tensor R) where
  mem st := memOf (st.1.data :: st.2.data :: vals) []
  inv st := Sh a0 st.1 ∧ Sh b0 st.2
  m0 := memOf (a0.data :: b0.data :: vals) []
  ro b := b ≠ .val 0 ∧ b ≠ .val 1
  const := by
    intro s _ b hb
    cases b with
    | val k =>
      match k with
      | 0 => exact absurd rfl hb.1
      | 1 => exact absurd rfl hb.2
      | k + 2 => rfl
    | idx k => rfl

@[reducible] def fstLens (A B : Type) : Lens (A × B) A :=
  ⟨fun s => s.1, fun s u => (u, s.2), fun _ _ => rfl, fun _ _ _ => rfl, fun _ => rfl⟩

@[reducible] def sndLens (A B : Type) : Lens (A × B) B :=
  ⟨fun s => s.2, fun s u => (s.1, u), fun _ _ => rfl, fun _ _ _ => rfl, fun _ => rfl⟩

theorem part2a (a0 b0 : Tensor R) (vals : List (List R)) :
    Part (frame2 a0 b0 vals) 0 a0 (fstLens _ _) :=
  ⟨by simp, fun _ _ => rfl, fun _ h => h.1, fun s d _ => by simp [memOf_set_val],
    fun _ _ h h' => ⟨h', h.2⟩⟩

theorem part2b (a0 b0 : Tensor R) (vals : List (List R)) :
    Part (frame2 a0 b0 vals) 1 b0 (sndLens _ _) :=
  ⟨by simp, fun _ _ => rfl, fun _ h => h.2, fun s d _ => by simp [memOf_set_val],
    fun _ _ h h' => ⟨h.1, h'⟩⟩

/-- The elements of one sample of either tensor. -/
def inSample2 (a b : Tensor R) (s : Nat) (c : Buf) (k : Nat) : Prop :=
  inSampleOf 0 a s c k ∨ inSampleOf 1 b s c k

theorem inSample2_disjoint (a b : Tensor R) {i j : Nat} (hij : i ≠ j) (c : Buf) (k : Nat)
    (h1 : inSample2 a b i c k) : ¬ inSample2 a b j c k := by
  rintro (h2 | h2) <;> rcases h1 with h1 | h1
  · exact interval_disjoint hij h1.2.1 h1.2.2 h2.2.1 h2.2.2
  · have := h1.1.symm.trans h2.1; simp at this
  · have := h1.1.symm.trans h2.1; simp at this
  · exact interval_disjoint hij h1.2.1 h1.2.2 h2.2.1 h2.2.2

theorem concatBackward_schedule [Zero R] (outputDelta : Tensor R) (st st' : Tensor R × Tensor R)
    (h : Layers.concatBackward outputDelta st = some st') :
    EverySchedule (fun s : Fin st.1.samples => concatBackwardSample outputDelta st.1 st.2 s)
      (memOf [st.1.data, st.2.data, outputDelta.data] [])
      (memOf [st'.1.data, st'.2.data, outputDelta.data] []) := by
  refine everySchedule_of_runs (frame2 st.1 st.2 [outputDelta.data]) (W := inSample2 st.1 st.2)
    (fun s hs => ?_) (fun i j _ _ hij b k h1 => inSample2_disjoint _ _ hij b k h1)
    ⟨Sh.rfl' _, Sh.rfl' _⟩ rfl h
  refine Runs.congr (Runs.seq
    (Part.loop (L := fstLens _ _) (f := fun m da => (copyMap outputDelta s m da s m).map (·.2))
      fun m hm => ?_)
    (Part.loop (L := sndLens _ _)
      (f := fun m db => (copyMap outputDelta s (st.1.maps + m) db s m).map (·.2))
      fun m hm => ?_)) fun u hu => ?_
  · exact copyMap_runs (part2a st.1 st.2 _) outputDelta (k := 2) (by simp) rfl s m s m
      fun x y hx hy => .inl (inSampleOf_offset 0 st.1 s hx hy hm)
  · exact copyMap_runs (part2b st.1 st.2 _) outputDelta (k := 2) (by simp) rfl s (st.1.maps + m) s m
      fun x y hx hy => .inr (inSampleOf_offset 1 st.2 s hx hy hm)
  · unfold Lens.lift
    dsimp only
    cases forLoop st.1.maps (fun m da => (copyMap outputDelta s m da s m).map (·.2)) u.1 <;> rfl

/-! ### src/net/LocalResponseNormalizationLayer.cpp -/

section
variable {S β : Type} {F : Frame (Cell R) S} {W : Buf → Nat → Prop}

theorem overRegion_evals (c : Lrn.Config R) (input : Tensor R) (x y m : Nat)
    {p : Nat → Nat → Nat → β → Prog (Cell R) β} {f : Nat → Nat → Nat → β → Option β} (s : β)
    (h : ∀ ix iy im s, Evals F (p ix iy im s) (f ix iy im s)) :
    Evals F (overRegionP c input x y m p s) (Lrn.overRegion c input x y m f s) := by
  unfold overRegionP Lrn.overRegion
  cases c.method with
  | acrossChannels => exact Evals.loop fun i s hi => h _ _ _ s
  | withinChannels => exact Evals.loop fun i s hi => Evals.loop fun j s hj => h _ _ _ s

theorem overRegion_runs (c : Lrn.Config R) (input : Tensor R) {x y m : Nat} (hx : x < input.width)
    (hy : y < input.height) (hm : m < input.maps)
    {p : Nat → Nat → Nat → Prog (Cell R) Unit} {f : Nat → Nat → Nat → S → Option S}
    (h : ∀ ix iy im, ix < input.width → iy < input.height → im < input.maps →
      Runs F W (p ix iy im) (f ix iy im)) :
    Runs F W (overRegionP c input x y m (fun ix iy im _ => p ix iy im) ())
      (Lrn.overRegion c input x y m f) := by
  unfold overRegionP Lrn.overRegion
  cases c.method with
  | acrossChannels =>
    exact Runs.loop (F := F) (W := W) (p := fun i => p x y (m - Lrn.sub c.size + i))
      (f := fun i => f x y (m - Lrn.sub c.size + i)) fun i hi => h _ _ _ hx hy (by omega)
  | withinChannels =>
    exact Runs.loop (F := F) (W := W)
      (p := fun i => Prog.loop' _ fun j => p (x - Lrn.sub c.size + j) (y - Lrn.sub c.size + i) m)
      (f := fun i => forLoop _ fun j => f (x - Lrn.sub c.size + j) (y - Lrn.sub c.size + i) m)
      fun i hi => Runs.loop fun j hj => h _ _ _ (by omega) (by omega) hm

end

theorem lrnForward_schedule [Field R] (pow : R → R → R) (c : Lrn.Config R) (input : Tensor R)
    (st st' : Tensor R × Tensor R) (hsq : input.height ≤ input.width) (h1 : Sh input st.1)
    (h2 : Sh input st.2) (h : Lrn.forward pow c input st = some st') :
    EverySchedule (fun s : Fin input.samples => lrnForwardSample pow c input st.1 st.2 s)
      (memOf [st.1.data, st.2.data, input.data] [])
      (memOf [st'.1.data, st'.2.data, input.data] []) := by
  refine everySchedule_of_runs (frame2 st.1 st.2 [input.data]) (W := inSample2 st.1 st.2)
    (fun s hs => ?_) (fun i j _ _ hij b k h1 => inSample2_disjoint _ _ hij b k h1)
    ⟨Sh.rfl' _, Sh.rfl' _⟩ rfl h
  refine Runs.loop fun m hm => Runs.loop fun y hy => Runs.loop fun x hx => ?_
  have hl : ∀ i, Evals (frame2 st.1 st.2 [input.data]) (load 2 i) (rd input.data i) := fun i =>
    Evals.get (F := frame2 st.1 st.2 [input.data]) (b := Buf.val 2) (by simp)
  obtain ⟨_, e2, e3, e4⟩ := h1
  obtain ⟨_, g2, g3, g4⟩ := h2
  refine Runs.congr (Runs.eval (overRegion_evals c input x y m (0, 0) fun ix iy im acc =>
    (hl _).map _) fun r _ => Runs.seq ((part2a st.1 st.2 _).store' r.1
      (.inl (inSampleOf_offset 0 st.1 s (by omega) (by omega) (by omega))))
      (Runs.eval (hl _) fun v _ => (part2b st.1 st.2 _).store' _
      (.inr (inSampleOf_offset 1 st.2 s (by omega) (by omega) (by omega))))) fun u hu => ?_
  unfold Lrn.forwardStep Lrn.region Lens.lift
  dsimp only
  refine congrArg (Option.bind _) ?_
  funext r
  cases u.1.put x y m s r.1 with
  | none => rfl
  | some a =>
    cases hg : input.get x y m s with
    | none => unfold Tensor.get at hg; simp [hg]
    | some v => unfold Tensor.get at hg; simp [hg]

theorem setSample_sh [CommRing R] {t u : Tensor R} {v : R}
    (h : TensorMath.setSample t none v = some u) : Sh t u := by
  unfold TensorMath.setSample forRange at h
  exact forLoop_inv_of_eq (fun _ u => Sh t u) h (Sh.rfl' t)
    fun _ _ _ _ hs hp => hs.trans (putElem_sh hp)

theorem lrnBackward_schedule [Field R] (pow : R → R → R) (c : Lrn.Config R)
    (input sums outputDelta t t' : Tensor R) (hsq : input.height ≤ input.width) (h1 : Sh input t)
    (h : Lrn.backward pow c input sums outputDelta t = some t') :
    ∃ d, TensorMath.setSample t none 0 = some d ∧
      EverySchedule (fun s : Fin input.samples => lrnBackwardSample pow c input sums outputDelta d s)
        (memOf [d.data, input.data, sums.data, outputDelta.data] [])
        (memOf [t'.data, input.data, sums.data, outputDelta.data] []) := by
  rw [Lrn.backward, Option.bind_eq_some_iff] at h
  obtain ⟨d, hd, h⟩ := h
  refine ⟨d, hd, ?_⟩
  have hsh := h1.trans (setSample_sh hd)
  refine everySchedule_of_runs (frame1 d [input.data, sums.data, outputDelta.data] [])
    (W := inSample d) (fun s hs => ?_) (fun i j _ _ hij b k h1 => inSample_disjoint d hij b k h1)
    (Sh.rfl' d) rfl h
  obtain ⟨_, e2, e3, e4⟩ := hsh
  have hmod : ∀ {ix iy im : Nat} (w : R), ix < input.width → iy < input.height → im < input.maps →
      Runs (frame1 d [input.data, sums.data, outputDelta.data] []) (inSample d s)
        (modify 0 (d.offset ix iy im s) fun v => v + w)
        (fun u => TensorMath.addElem u (u.offset ix iy im s) w) := by
    intro ix iy im w hx hy hm
    refine (modify1 _ (inSample_offset d s (by omega) (by omega) (by omega))).congr fun u hu => ?_
    rw [Sh.offset hu]; rfl
  refine Runs.loop fun m hm => Runs.loop fun y hy => Runs.loop fun x hx => ?_
  unfold Lrn.backwardStep
  refine Runs.eval (load1 1 _) fun sum _ => ?_
  refine Runs.eval (overRegion_evals c input x y m 0 fun _ _ _ n => Evals.ret (n + 1)) fun n _ => ?_
  refine Runs.eval (load1 0 _) fun xi _ => ?_
  refine Runs.eval (load1 2 _) fun dxi _ => ?_
  refine Runs.seq (overRegion_runs c input (by omega) hy hm fun ix iy im hix hiy him => ?_)
    (hmod _ (by omega) hy hm)
  exact Runs.eval (load1 0 _) fun xj _ => hmod _ hix hiy him

/-! ### Pooling -/

/-- The elements of one sample of the output and of the position tensors. -/
def inSampleIdx (out : Tensor R) (idxs : List (Tensor Nat)) (s : Nat) (b : Buf) (k : Nat) : Prop :=
  inSampleOf 0 out s b k ∨ ∃ l t, idxs[l]? = some t ∧ b = .idx l ∧
    s * (t.maps * t.width * t.height) ≤ k ∧ k < (s + 1) * (t.maps * t.width * t.height)

theorem inSampleIdx_disjoint (out : Tensor R) (idxs : List (Tensor Nat)) {i j : Nat} (hij : i ≠ j)
    (b : Buf) (k : Nat) (h1 : inSampleIdx out idxs i b k) : ¬ inSampleIdx out idxs j b k := by
  rintro (h2 | ⟨l2, t2, e2, b2, h2, h2'⟩) <;> rcases h1 with h1 | ⟨l1, t1, e1, b1, h1, h1'⟩
  · exact interval_disjoint hij h1.2.1 h1.2.2 h2.2.1 h2.2.2
  · have := b1.symm.trans h2.1; simp at this
  · have := h1.1.symm.trans b2; simp at this
  · have : l1 = l2 := by have := b1.symm.trans b2; simpa using this
    subst this
    obtain rfl := Option.some.inj (e1.symm.trans e2)
    exact interval_disjoint hij h1 h1' h2 h2'

/-- The state of the max-pooling layer: the position tensors and the output. -/
@[reducible] def framePool (mx0 my0 : Tensor Nat) (out0 : Tensor R) (vals : List (List R)) :
    Frame (Cell R) ((Tensor Nat × Tensor Nat) × Tensor R) where
  mem st := memOf (st.2.data :: vals) [st.1.1.data, st.1.2.data]
  inv st := Sh mx0 st.1.1 ∧ Sh my0 st.1.2 ∧ Sh out0 st.2
  m0 := memOf (out0.data :: vals) [mx0.data, my0.data]
  ro b := ∃ k, b = .val (k + 1)
  const := by
    rintro s _ b ⟨k, rfl⟩
    rfl

theorem put_cases {α : Type} {t0 t : Tensor α} (ht : Sh t0 t) (x y m s : Nat) (v : α) :
    t.put x y m s v = (wr t.data (t0.offset x y m s) v).map fun d => { t with data := d } := by
  rw [put, Sh.offset ht]

theorem maxForward_schedule [LT R] [DecidableLT R] (lowest : R) (rw rh : Nat) (input : Tensor R)
    (st st' : (Tensor Nat × Tensor Nat) × Tensor R) (h1 : Sh st.2 st.1.1) (h2 : Sh st.2 st.1.2)
    (hm : input.maps ≤ st.2.maps) (h : Pooling.forward lowest rw rh input st = some st') :
    EverySchedule (fun s : Fin input.samples =>
        maxForwardSample lowest rw rh input st.2 st.1.1 st.1.2 s)
      (memOf [st.2.data, input.data] [st.1.1.data, st.1.2.data])
      (memOf [st'.2.data, input.data] [st'.1.1.data, st'.1.2.data]) := by
  let F := framePool st.1.1 st.1.2 st.2 [input.data]
  refine everySchedule_of_runs F (W := inSampleIdx st.2 [st.1.1, st.1.2])
    (fun s hs => ?_) (fun i j _ _ hij b k h1 => inSampleIdx_disjoint _ _ hij b k h1)
    ⟨Sh.rfl' _, Sh.rfl' _, Sh.rfl' _⟩ rfl h
  have hl : ∀ i, Evals F (load 1 i) (rd input.data i) := fun i =>
    Evals.get (F := F) (b := Buf.val 1) ⟨0, rfl⟩
  obtain ⟨_, e2, e3, e4⟩ := h1
  obtain ⟨_, g2, g3, g4⟩ := h2
  refine Runs.loop fun m hm => Runs.loop fun ox hx => Runs.loop fun oy hy => ?_
  refine Runs.eval (Evals.loop fun i s hi => Evals.loop fun j s hj => (hl _).map _) fun r _ => ?_
  refine Runs.congr (Runs.seq (Runs.put (F := F) (b := Buf.idx 0)
      (f := fun u => (u.1.1.put ox oy m s (Pooling.toF32 r.2.1)).map fun a => ((a, u.1.2), u.2))
      (by rintro ⟨k, hk⟩; cases hk) (.inr ⟨0, _, rfl, rfl, offset_bounds _ s (by omega) (by omega) (by omega)⟩)
      (fun u hu => ?_) fun u u' hu he => ?_)
    (Runs.seq (Runs.put (F := F) (b := Buf.idx 1)
      (f := fun u => (u.1.2.put ox oy m s (Pooling.toF32 r.2.2)).map fun a => ((u.1.1, a), u.2))
      (by rintro ⟨k, hk⟩; cases hk) (.inr ⟨1, _, rfl, rfl, offset_bounds _ s (by omega) (by omega) (by omega)⟩)
      (fun u hu => ?_) fun u u' hu he => ?_)
    (Runs.put (F := F) (b := Buf.val 0)
      (f := fun u => (u.2.put ox oy m s r.1).map fun a => (u.1, a))
      (by rintro ⟨k, hk⟩; cases hk)
      (.inl (inSampleOf_offset 0 st.2 s (by omega) (by omega) (by omega)))
      (fun u hu => ?_) fun u u' hu he => ?_))) fun u hu => ?_
  · rw [put_cases hu.1]
    show (wr u.1.1.data _ _).map _ = _
    cases wr u.1.1.data (st.1.1.offset ox oy m s) (Pooling.toF32 r.2.1) with
    | none => rfl
    | some d => simp [F, memOf_set_idx]
  · rw [put_cases hu.1, Option.map_map, Option.map_eq_some_iff] at he
    obtain ⟨d, _, rfl⟩ := he
    exact hu
  · rw [put_cases hu.2.1]
    show (wr u.1.2.data _ _).map _ = _
    cases wr u.1.2.data (st.1.2.offset ox oy m s) (Pooling.toF32 r.2.2) with
    | none => rfl
    | some d => simp [F, memOf_set_idx]
  · rw [put_cases hu.2.1, Option.map_map, Option.map_eq_some_iff] at he
    obtain ⟨d, _, rfl⟩ := he
    exact hu
  · rw [put_cases hu.2.2]
    show (wr u.2.data _ _).map _ = _
    cases wr u.2.data (st.2.offset ox oy m s) r.1 with
    | none => rfl
    | some d => simp [F, memOf_set_val]
  · rw [put_cases hu.2.2, Option.map_map, Option.map_eq_some_iff] at he
    obtain ⟨d, _, rfl⟩ := he
    exact hu
  · cases u.1.1.put ox oy m s (Pooling.toF32 r.2.1) with
    | none => rfl
    | some a =>
      simp only [Option.map_some, Option.bind_some]
      cases u.1.2.put ox oy m s (Pooling.toF32 r.2.2) <;> rfl

theorem maxBackward_schedule [Zero R] (mx my : Tensor Nat) (outputDelta t t' : Tensor R)
    (hpos : ∀ ox oy m s ix iy, ox < outputDelta.width → oy < outputDelta.height → m < t.maps →
      s < t.samples → mx.get ox oy m s = some ix → my.get ox oy m s = some iy →
      ix < t.width ∧ iy < t.height)
    (h : Pooling.backward mx my outputDelta t = some t') :
    ∃ c, t.clear 0 none = some c ∧
      EverySchedule (fun s : Fin t.samples => maxBackwardSample mx my outputDelta t s)
        (memOf [c.data, outputDelta.data] [mx.data, my.data])
        (memOf [t'.data, outputDelta.data] [mx.data, my.data]) := by
  rw [Pooling.backward, Option.bind_eq_some_iff] at h
  obtain ⟨c, hc, h⟩ := h
  refine ⟨c, hc, ?_⟩
  have hsh := clear_sh hc
  have key := everySchedule_of_runs (frame1 c [outputDelta.data] [mx.data, my.data])
    (W := inSample c) (P := fun s => maxBackwardSample mx my outputDelta c s) (fun s hs => ?_)
    (fun i j _ _ hij b k h1 => inSample_disjoint c hij b k h1) (Sh.rfl' c) rfl h
  · have e : ∀ s, maxBackwardSample mx my outputDelta t s = maxBackwardSample mx my outputDelta c s := by
      intro s
      unfold maxBackwardSample
      simp only [Sh.offset hsh, hsh.2.2.2]
    simp only [e]
    have hk : c.samples = t.samples := hsh.1.symm
    rw [← hk]
    exact key
  · obtain ⟨e1, e2, e3, e4⟩ := hsh
    refine Runs.loop fun m hm => Runs.loop fun ox hx => Runs.loop fun oy hy => ?_
    refine Runs.eval (loadIdx1 0 _) fun ix hix => Runs.eval (loadIdx1 1 _) fun iy hiy =>
      Runs.eval (load1 0 _) fun v _ => store1' v ?_
    obtain ⟨h1, h2⟩ := hpos ox oy m s ix iy hx hy (by omega) (by omega) hix hiy
    exact inSample_offset c s (by omega) (by omega) hm

/-- The state of the other max-pooling layer: the mask and the output. -/
@[reducible] def frameAdv (mask0 : Tensor Nat) (out0 : Tensor R) (vals : List (List R)) :
    Frame (Cell R) (Tensor Nat × Tensor R) where
  mem st := memOf (st.2.data :: vals) [st.1.data]
  inv st := Sh mask0 st.1 ∧ Sh out0 st.2
  m0 := memOf (out0.data :: vals) [mask0.data]
  ro b := ∃ k, b = .val (k + 1)
  const := by
    rintro s _ b ⟨k, rfl⟩
    rfl

theorem advForward_schedule [LT R] [DecidableLT R] (lowest : R) (rw rh sw sh : Nat)
    (input : Tensor R) (st st' : Tensor Nat × Tensor R) (h1 : Sh st.2 st.1)
    (hm : input.maps ≤ st.2.maps) (h : Pooling.advForward lowest rw rh sw sh input st = some st') :
    EverySchedule (fun s : Fin input.samples =>
        advForwardSample lowest rw rh sw sh input st.2 st.1 s)
      (memOf [st.2.data, input.data] [st.1.data])
      (memOf [st'.2.data, input.data] [st'.1.data]) := by
  let F := frameAdv st.1 st.2 [input.data]
  refine everySchedule_of_runs F (W := inSampleIdx st.2 [st.1])
    (fun s hs => ?_) (fun i j _ _ hij b k h1 => inSampleIdx_disjoint _ _ hij b k h1)
    ⟨Sh.rfl' _, Sh.rfl' _⟩ rfl h
  have hl : ∀ i, Evals F (load 1 i) (rd input.data i) := fun i =>
    Evals.get (F := F) (b := Buf.val 1) ⟨0, rfl⟩
  obtain ⟨_, e2, e3, e4⟩ := h1
  refine Runs.loop fun m hm => Runs.loop fun ox hx => Runs.loop fun oy hy => ?_
  refine Runs.eval (Evals.loop fun i s hi => Evals.loop fun j s hj => (hl _).map _) fun r _ => ?_
  refine Runs.congr (Runs.seq (Runs.put (F := F) (b := Buf.idx 0)
      (f := fun u => (u.1.put ox oy m s (Pooling.toF32 (input.width * r.2.2 + r.2.1))).map
        fun a => (a, u.2))
      (by rintro ⟨k, hk⟩; cases hk) (.inr ⟨0, _, rfl, rfl, offset_bounds _ s (by omega) (by omega) (by omega)⟩)
      (fun u hu => ?_) fun u u' hu he => ?_)
    (Runs.put (F := F) (b := Buf.val 0)
      (f := fun u => (u.2.put ox oy m s r.1).map fun a => (u.1, a))
      (by rintro ⟨k, hk⟩; cases hk)
      (.inl (inSampleOf_offset 0 st.2 s (by omega) (by omega) (by omega)))
      (fun u hu => ?_) fun u u' hu he => ?_)) fun u hu => ?_
  · rw [put_cases hu.1]
    show (wr u.1.data _ _).map _ = _
    cases wr u.1.data (st.1.offset ox oy m s) (Pooling.toF32 (input.width * r.2.2 + r.2.1)) with
    | none => rfl
    | some d => simp [F, memOf_set_idx]
  · rw [put_cases hu.1, Option.map_map, Option.map_eq_some_iff] at he
    obtain ⟨d, _, rfl⟩ := he
    exact hu
  · rw [put_cases hu.2]
    show (wr u.2.data _ _).map _ = _
    cases wr u.2.data (st.2.offset ox oy m s) r.1 with
    | none => rfl
    | some d => simp [F, memOf_set_val]
  · rw [put_cases hu.2, Option.map_map, Option.map_eq_some_iff] at he
    obtain ⟨d, _, rfl⟩ := he
    exact hu
  · cases u.1.put ox oy m s (Pooling.toF32 (input.width * r.2.2 + r.2.1)) <;> rfl

theorem advBackward_schedule [Zero R] [Add R] (rw rh sw sh : Nat) (mask : Tensor Nat)
    (outputDelta t t' : Tensor R)
    (h : Pooling.advBackward rw rh sw sh mask outputDelta t = some t') :
    EverySchedule (fun s : Fin t.samples => advBackwardSample rw rh sw sh mask outputDelta t s)
      (memOf [t.data, outputDelta.data] [mask.data])
      (memOf [t'.data, outputDelta.data] [mask.data]) := by
  rw [Pooling.advBackward] at h
  split at h
  · cases h
  refine everySchedule_of_runs (frame1 t [outputDelta.data] [mask.data])
    (W := inSample t) (fun s hs => ?_)
    (fun i j _ _ hij b k h1 => inSample_disjoint t hij b k h1) (Sh.rfl' t) rfl h
  refine Runs.loop fun m hm => Runs.loop fun ix hx => Runs.loop fun iy hy => ?_
  refine Runs.eval (Evals.loop fun j sum hj => Evals.loop fun i sum hi =>
    (loadIdx1 0 _).bind fun k _ => Evals.ite (fun _ => ?_) fun _ => ?_) fun sum _ => ?_
  · exact (load1 0 _).map _
  · exact Evals.ret sum
  · exact store1' _ (inSample_offset t s hx hy hm)

/-! ### Statistics and data -/

/-- The counters of the binary statistics layer. -/
@[reducible] def frameStat (counts0 : List (BinaryStat.Counts R)) (vals : List (List R)) :
    Frame (Cell R) (List (BinaryStat.Counts R)) where
  mem c := memOf (c.map (·.tp) :: c.map (·.fp) :: c.map (·.tn) :: c.map (·.fn) :: vals) []
  inv _ := True
  m0 := memOf (counts0.map (·.tp) :: counts0.map (·.fp) :: counts0.map (·.tn) ::
    counts0.map (·.fn) :: vals) []
  ro b := ∃ k, b = .val (k + 4)
  const := by
    rintro s _ b ⟨k, rfl⟩
    rfl

/-- The counters of one threshold. -/
def isCounter (t : Nat) (b : Buf) (k : Nat) : Prop := (∃ j, j < 4 ∧ b = .val j) ∧ k = t

open BinaryStat in
theorem stat_modify (counts0 : List (Counts R)) (vals : List (List R)) {j : Nat} (hj : j < 4)
    (proj : Counts R → R) (upd : Counts R → R → Counts R) (g : R → R) (t : Nat)
    (h1 : ∀ c : List (Counts R), (frameStat counts0 vals).mem c (.val j) = c.map proj)
    (h2 : ∀ (c : List (Counts R)) x v, c[t]? = some x →
      (frameStat counts0 vals).mem (c.set t (upd x v)) =
        ((frameStat counts0 vals).mem c).set (.val j) ((c.map proj).set t v)) :
    Runs (frameStat counts0 vals) (isCounter t) (modify j t g)
      (fun c => (rd c t).bind fun x => wr c t (upd x (g (proj x)))) := by
  refine Runs.congr (Runs.own (F := frameStat counts0 vals) (b := Buf.val j) (i := t)
    ⟨⟨j, hj, rfl⟩, rfl⟩ (f := fun v c => (rd c t).bind fun x => wr c t (upd x (g v)))
    fun v => Runs.put (F := frameStat counts0 vals) (b := Buf.val j) (v := g v)
      (by rintro ⟨k, hk⟩; cases hk; omega) ⟨⟨j, hj, rfl⟩, rfl⟩ (fun c _ => ?_) fun _ _ _ _ => trivial)
    fun c _ => ?_
  · rw [h1 c]
    by_cases ht : t < c.length
    · have e : rd c t = some c[t] := List.getElem?_eq_getElem ht
      rw [wr_of_lt (by simpa using ht), e, Option.bind_some, wr_of_lt ht, Option.map_some,
        Option.map_some, h2 c c[t] (g v) e]
    · have e : rd c t = none := List.getElem?_eq_none (by omega)
      have e' : wr (c.map proj) t (g v) = none := by simp [wr, ht]
      rw [e, e']
      rfl
  · rw [h1 c]
    unfold rd
    rw [List.getElem?_map]
    cases c[t]? <;> rfl

theorem map_set_same {α β : Type} {c : List α} {t : Nat} {x : α} (hx : c[t]? = some x) (y : α)
    (q : α → β) (h : q y = q x) : (c.set t y).map q = c.map q := by
  rw [List.map_set, h]
  refine List.ext_getElem? fun i => ?_
  by_cases e : t = i
  · subst e
    have ht : t < c.length := by
      rw [List.getElem?_eq_some_iff] at hx
      exact hx.1
    rw [List.getElem?_set_self (by simpa using ht), List.getElem?_map, hx]
    rfl
  · rw [List.getElem?_set_ne e]

theorem binary_schedule [Field R] [LinearOrder R] (first second third : Tensor R)
    (st st' : BinaryStat.State R)
    (h : BinaryStat.feedForward false first second third st = some st') :
    EverySchedule (fun t : Fin st.values.length => binaryThreshold (R := R) first.elements t)
      (memOf [st.counts.map (·.tp), st.counts.map (·.fp), st.counts.map (·.tn),
        st.counts.map (·.fn), st.values, first.data, second.data, third.data] [])
      (memOf [st'.counts.map (·.tp), st'.counts.map (·.fp), st'.counts.map (·.tn),
        st'.counts.map (·.fn), st.values, first.data, second.data, third.data] []) := by
  rw [BinaryStat.feedForward, if_neg (by simp), Option.map_eq_some_iff] at h
  obtain ⟨counts, h, rfl⟩ := h
  let F := frameStat st.counts [st.values, first.data, second.data, third.data]
  have hl : ∀ (l i : Nat), Evals F (load (4 + l) i)
      (rd (F.m0 (Buf.val (4 + l))) i) := fun l i =>
    Evals.get (F := F) (b := Buf.val (4 + l)) ⟨l, by rw [Nat.add_comm]⟩
  refine everySchedule_of_runs F (W := isCounter) (fun t ht => ?_) ?_ trivial rfl h
  · refine Runs.eval (hl 0 t) fun threshold _ => Runs.loop fun s hs => ?_
    refine Runs.eval (hl 1 s) fun a _ => Runs.eval (hl 2 s) fun b _ => Runs.eval (hl 3 s) fun w _ => ?_
    by_cases ha : threshold < a <;> by_cases hb : 0 < b
    · simp only [ha, hb, not_true_eq_false, and_self, and_false, if_true, if_false, decide_true,
        BinaryStat.Counts.add]
      refine stat_modify _ _ (by omega) (·.tp) (fun c v => { c with tp := v }) (fun v => v + w) t
        (fun c => rfl) fun c x v hx => ?_
      rw [memOf_set_val _ _ (by simp)]
      simp only [map_set_same hx, List.map_set, List.set_cons_zero]
    · simp only [ha, hb, not_false_eq_true, and_self, and_false, if_true, if_false, decide_true,
        decide_false, BinaryStat.Counts.add]
      refine stat_modify _ _ (by omega) (·.fp) (fun c v => { c with fp := v }) (fun v => v + w) t
        (fun c => rfl) fun c x v hx => ?_
      rw [memOf_set_val _ _ (by simp)]
      simp only [map_set_same hx, List.map_set, List.set_cons_zero, List.set_cons_succ]
    · simp only [ha, hb, not_false_eq_true, and_self, false_and, if_true, if_false, decide_true,
        decide_false, BinaryStat.Counts.add]
      refine stat_modify _ _ (by omega) (·.fn) (fun c v => { c with fn := v }) (fun v => v + w) t
        (fun c => rfl) fun c x v hx => ?_
      rw [memOf_set_val _ _ (by simp)]
      simp only [map_set_same hx, List.map_set, List.set_cons_zero, List.set_cons_succ]
    · simp only [ha, hb, not_false_eq_true, and_self, false_and, and_false, if_true, if_false,
        decide_true, decide_false, BinaryStat.Counts.add]
      refine stat_modify _ _ (by omega) (·.tn) (fun c v => { c with tn := v }) (fun v => v + w) t
        (fun c => rfl) fun c x v hx => ?_
      rw [memOf_set_val _ _ (by simp)]
      simp only [map_set_same hx, List.map_set, List.set_cons_zero, List.set_cons_succ]
  · rintro i j _ _ hij b k ⟨_, h1⟩ ⟨_, h2⟩
    omega

theorem clear_sample_sh {t u : Tensor R} {v : R} {s : Nat} (h : t.clear v (some s) = some u) : Sh t u :=
  forLoop_inv_of_eq (fun _ u => Sh t u) h (Sh.rfl' t) fun _ _ _ _ hs hp => hs.trans (putElem_sh hp)

theorem weights_schedule [Field R] [LinearOrder R] (lowest : R)
    (errorFunction : Nat → Nat → Nat → Nat → R) (classWeights : List R) (label : Tensor R)
    (dataWidth dataHeight sample : Nat) (weight weight' : Tensor R) (hw : dataWidth ≤ weight.width)
    (h : TensorStreamDataset.writeWeights lowest errorFunction classWeights label dataWidth dataHeight sample
      weight = some weight') :
    ∃ c, weight.clear 0 (some sample) = some c ∧
      EverySchedule (fun y : Fin dataHeight =>
          weightRow lowest errorFunction label dataWidth dataHeight sample weight y)
        (memOf [c.data, label.data, classWeights] [])
        (memOf [weight'.data, label.data, classWeights] []) := by
  rw [TensorStreamDataset.writeWeights, Option.bind_eq_some_iff] at h
  obtain ⟨c, hc, h⟩ := h
  refine ⟨c, hc, ?_⟩
  have hsh := clear_sample_sh hc
  refine everySchedule_of_runs (frame1 c [label.data, classWeights] [])
    (W := inRow (weight.offset 0 0 0 sample) weight.width) (fun y hy => ?_) ?_ (Sh.rfl' c) rfl h
  · refine Runs.loop fun x hx => ?_
    refine Runs.congr (Runs.eval (Evals.loop fun k best hk => (load1 0 _).map _) fun best _ =>
      Runs.eval (load1 1 _) fun cw _ => store1 _ ?_) fun u hu => ?_
    · refine ⟨rfl, ?_⟩
      have e : weight.offset x y 0 sample = weight.offset 0 0 0 sample + weight.width * y + x := by
        simp only [Tensor.offset]; rw [Nat.mul_comm weight.width]; omega
      rw [e, Nat.mul_succ]
      omega
    · rw [Tensor.pixelMaximum, Option.bind_map]
      simp only [Tensor.put, Sh.offset (hsh.trans hu)]
      rfl
  · rintro i j _ _ hij b k ⟨_, h1, h1'⟩ ⟨_, h2, h2'⟩
    rw [Nat.mul_comm] at h1 h1' h2 h2'
    refine interval_disjoint (E := weight.width) hij (k := k - weight.offset 0 0 0 sample) ?_ ?_ ?_ ?_ <;> omega

end CN24.Parallel
