import Verif.Spec.DeviceNet

/-! Rules for the moves between the memories. -/

namespace CN24.DeviceNet
variable {V : Type _}

/-- The values written depend on what is read only. -/
def Kernel.Local (k : Kernel V) : Prop :=
  ∀ m m' : Mem V, (∀ c, k.reads c → m c = m' c) → ∀ c, k.writes c → k.value m c = k.value m' c

/-- The code reads elements of the first tensors and writes elements of the second ones. -/
structure Uses (size : Nat → Nat) (k : Kernel V) (rd wr : Nat → Prop) : Prop where
  loc : k.Local
  rd : ∀ c, k.reads c → rd c.1 ∧ c.2 < size c.1
  wr : ∀ c, k.writes c → wr c.1

/-- The code writes all elements of a tensor. -/
def Covers (size : Nat → Nat) (k : Kernel V) (st : Nat) : Prop := ∀ i, i < size st → k.writes (st, i)

/-- The value a program sees: on the side the tensor is on. -/
def current (s : State V) (c : Cell) : V := if s.gpu c.1 then s.dev c else s.host c

/-- The two memories hold the contents `m`, except for the elements `P` that are still to be written;
of the tensors `F`, the host has the contents whatever side they are on; the tensors `priv` are on the
host. -/
structure Inv (size : Nat → Nat) (priv : Nat → Prop) (F : Nat → Prop) (s : State V) (m : Mem V)
    (P : Cell → Prop) : Prop where
  good : ∀ c, c.2 < size c.1 → ¬ P c → current s c = m c
  fresh : ∀ c, c.2 < size c.1 → ¬ P c → F c.1 → s.host c = m c
  priv : ∀ st, priv st → s.gpu st = false

section
variable {size : Nat → Nat} {priv F : Nat → Prop} {s : State V} {m : Mem V} {P : Cell → Prop}

theorem Inv.mono (h : Inv size priv F s m P) {F' : Nat → Prop} {P' : Cell → Prop}
    (hF : ∀ st, F' st → F st) (hP : ∀ c, c.2 < size c.1 → P c → P' c) : Inv size priv F' s m P' :=
  ⟨fun c hc hn => h.good c hc fun hp => hn (hP c hc hp),
   fun c hc hn hf => h.fresh c hc (fun hp => hn (hP c hc hp)) (hF _ hf), h.priv⟩

/-- Tensors on the host may be counted among those the host has the contents of. -/
theorem Inv.add (h : Inv size priv F s m P) {G : Nat → Prop} (hG : ∀ st, G st → s.gpu st = false) :
    Inv size priv (fun st => F st ∨ G st) s m P := by
  refine ⟨h.good, ?_, h.priv⟩
  intro c hc hn hf
  rcases hf with hf | hf
  · exact h.fresh c hc hn hf
  · have := h.good c hc hn
    rw [current, hG _ hf] at this
    simpa using this

theorem Inv.setHint (h : Inv size priv F s m P) (o : Obj) (b : Bool) :
    Inv size priv F (setHint o b s) m P := ⟨h.good, h.fresh, h.priv⟩

theorem gpu_setHint (o : Obj) (b : Bool) : (DeviceNet.setHint o b s).gpu = s.gpu := rfl

theorem gpu_toDevice (o : Obj) (skip : Bool) (k : Nat) :
    (toDevice o skip s).gpu k = if k = o.store then true else s.gpu k := by
  unfold toDevice
  split
  · split
    · simp_all
    · rfl
  · rfl

theorem gpu_toHost (o : Obj) (skip : Bool) (k : Nat) :
    (toHost o skip s).gpu k = if k = o.store then false else s.gpu k := by
  unfold toHost
  split
  · rfl
  · split
    · simp_all
    · rfl

theorem gpu_runHost (k : Kernel V) : (runHost k s).gpu = s.gpu := rfl

theorem gpu_runDevice (k : Kernel V) : (runDevice k s).gpu = s.gpu := rfl

theorem hint_toDevice (o : Obj) (skip : Bool) : (toDevice o skip s).hint = s.hint := by
  unfold toDevice; split <;> rfl

theorem hint_toHost (o : Obj) (skip : Bool) : (toHost o skip s).hint = s.hint := by
  unfold toHost; split <;> rfl

theorem Inv.toDevice (h : Inv size priv F s m P) (o : Obj) (ho : ¬ priv o.store) :
    Inv size priv F (toDevice o false s) m P := by
  refine ⟨?_, ?_, ?_⟩
  · intro c hc hn
    rw [← h.good c hc hn]
    unfold current DeviceNet.toDevice transfer
    cases hg : s.gpu o.store with
    | true => simp
    | false => by_cases hco : c.1 = o.store <;> simp [hco, hg]
  · intro c hc hn hf
    rw [← h.fresh c hc hn hf]
    unfold DeviceNet.toDevice
    split <;> rfl
  · intro st hst
    rw [gpu_toDevice, if_neg (by rintro rfl; exact ho hst)]
    exact h.priv st hst

theorem Inv.toDevice_skip (h : Inv size priv F s m P) (o : Obj) (skip : Bool) (ho : ¬ priv o.store) :
    Inv size priv F (DeviceNet.toDevice o skip s) m
      fun c => P c ∨ (s.gpu o.store = false ∧ c.1 = o.store) := by
  cases skip with
  | false => exact (h.toDevice o ho).mono (fun _ h => h) fun _ _ h => .inl h
  | true =>
    refine ⟨?_, ?_, ?_⟩
    · intro c hc hn
      rw [not_or] at hn
      rw [← h.good c hc hn.1]
      unfold current DeviceNet.toDevice
      cases hg : s.gpu o.store with
      | true => simp
      | false =>
        have : c.1 ≠ o.store := fun e => hn.2 ⟨hg, e⟩
        simp [this]
    · intro c hc hn hf
      rw [not_or] at hn
      rw [← h.fresh c hc hn.1 hf]
      unfold DeviceNet.toDevice
      split <;> rfl
    · intro st hst
      rw [gpu_toDevice, if_neg (by rintro rfl; exact ho hst)]
      exact h.priv st hst

theorem Inv.toHost (h : Inv size priv F s m P) (o : Obj) : Inv size priv F (toHost o false s) m P := by
  refine ⟨?_, ?_, ?_⟩
  · intro c hc hn
    rw [← h.good c hc hn]
    unfold current DeviceNet.toHost transfer
    cases hg : s.gpu o.store with
    | false => simp
    | true => by_cases hco : c.1 = o.store <;> simp [hco, hg]
  · intro c hc hn hf
    have hg := h.good c hc hn
    have hr := h.fresh c hc hn hf
    unfold DeviceNet.toHost transfer
    by_cases hgpu : s.gpu o.store = true
    · by_cases hco : c.1 = o.store
      · rw [current, hco, hgpu] at hg
        simpa [hgpu, hco] using hg
      · simpa [hgpu, hco] using hr
    · simpa [hgpu] using hr
  · intro st hst
    rw [gpu_toHost]
    split
    · rfl
    · exact h.priv st hst

theorem Inv.toHost_skip (h : Inv size priv F s m P) (o : Obj) (skip : Bool) :
    Inv size priv F (DeviceNet.toHost o skip s) m
      fun c => P c ∨ (s.gpu o.store = true ∧ c.1 = o.store) := by
  cases skip with
  | false => exact (h.toHost o).mono (fun _ h => h) fun _ _ h => .inl h
  | true =>
    refine ⟨?_, ?_, ?_⟩
    · intro c hc hn
      rw [not_or] at hn
      rw [← h.good c hc hn.1]
      unfold current DeviceNet.toHost
      cases hg : s.gpu o.store with
      | false => simp
      | true =>
        have : c.1 ≠ o.store := fun e => hn.2 ⟨hg, e⟩
        simp [this]
    · intro c hc hn hf
      rw [not_or] at hn
      rw [← h.fresh c hc hn.1 hf]
      unfold DeviceNet.toHost
      split <;> rfl
    · intro st hst
      rw [gpu_toHost]
      split
      · rfl
      · exact h.priv st hst

theorem Inv.runDevice (h : Inv size priv F s m P) {k : Kernel V} {rd wr : Nat → Prop}
    (hu : Uses size k rd wr) (hr : ∀ st, rd st → s.gpu st = true) (hw : ∀ st, wr st → s.gpu st = true)
    (hp : ∀ c, k.reads c → ¬ P c) :
    Inv size priv (fun st => F st ∧ ¬ wr st) (runDevice k s) (k.exec m) fun c => P c ∧ ¬ k.writes c := by
  have hread : ∀ c, k.reads c → s.dev c = m c := by
    intro c hc
    have := h.good c (hu.rd c hc).2 (hp c hc)
    rw [current, hr _ (hu.rd c hc).1] at this
    simpa using this
  refine ⟨?_, ?_, h.priv⟩
  · intro c hc hn
    unfold current DeviceNet.runDevice Kernel.exec
    by_cases hcw : k.writes c
    · simp only [hw _ (hu.wr c hcw), if_true, if_pos hcw]
      exact hu.loc _ _ hread c hcw
    · simp only [if_neg hcw]
      exact h.good c hc fun hp => hn ⟨hp, hcw⟩
  · intro c hc hn hf
    have hcw : ¬ k.writes c := fun hcw => hf.2 (hu.wr c hcw)
    show s.host c = Kernel.exec k m c
    unfold Kernel.exec
    rw [if_neg hcw]
    exact h.fresh c hc (fun hp => hn ⟨hp, hcw⟩) hf.1

theorem Inv.runHost (h : Inv size priv F s m P) {k : Kernel V} {rd wr : Nat → Prop}
    (hu : Uses size k rd wr) (hr : ∀ st, rd st → s.gpu st = false ∨ F st)
    (hw : ∀ st, wr st → s.gpu st = false) (hp : ∀ c, k.reads c → ¬ P c) :
    Inv size priv F (runHost k s) (k.exec m) fun c => P c ∧ ¬ k.writes c := by
  have hread : ∀ c, k.reads c → s.host c = m c := by
    intro c hc
    rcases hr _ (hu.rd c hc).1 with hg | hf
    · have := h.good c (hu.rd c hc).2 (hp c hc)
      rw [current, hg] at this
      simpa using this
    · exact h.fresh c (hu.rd c hc).2 (hp c hc) hf
  refine ⟨?_, ?_, h.priv⟩
  · intro c hc hn
    unfold current DeviceNet.runHost Kernel.exec
    by_cases hcw : k.writes c
    · simp only [hw _ (hu.wr c hcw), if_pos hcw]
      exact hu.loc _ _ hread c hcw
    · simp only [if_neg hcw]
      exact h.good c hc fun hp => hn ⟨hp, hcw⟩
  · intro c hc hn hf
    show Kernel.exec k s.host c = Kernel.exec k m c
    unfold Kernel.exec
    by_cases hcw : k.writes c
    · rw [if_pos hcw, if_pos hcw]
      exact hu.loc _ _ hread c hcw
    · rw [if_neg hcw, if_neg hcw]
      exact h.fresh c hc (fun hp => hn ⟨hp, hcw⟩) hf

/-! ### TensorMath -/

/-- A product: afterwards its target is on the side of the build, and what was on the other side and was
not copied is still to be written. -/
theorem Inv.gemm (h : Inv size priv F s m P) (clblas : Bool) {k : Kernel V} {a b c : Obj} (zero : Bool)
    (hu : Uses size k (fun st => st = a.store ∨ st = b.store ∨ (zero = false ∧ st = c.store))
      (fun st => st = c.store))
    (hpa : ∀ x, P x → x.1 = a.store → False) (hpb : ∀ x, P x → x.1 = b.store → False)
    (hpc : zero = false → ∀ x, x.2 < size x.1 → P x → x.1 = c.store → False)
    (hca : c.store ≠ a.store) (hcb : c.store ≠ b.store)
    (ha : ¬ priv a.store) (hb : ¬ priv b.store) (hc : ¬ priv c.store) :
    Inv size priv (fun st => F st ∧ st ≠ c.store) (gemm clblas k a b c zero s) (k.exec m)
      (fun x => (P x ∨ (zero = true ∧ s.gpu c.store ≠ clblas ∧ x.1 = c.store)) ∧ ¬ k.writes x) ∧
    (DeviceNet.gemm clblas k a b c zero s).gpu c.store = clblas ∧
    ∀ st, st ≠ a.store → st ≠ b.store → st ≠ c.store →
      (DeviceNet.gemm clblas k a b c zero s).gpu st = s.gpu st := by
  cases clblas with
  | true =>
    have h1 := (h.toDevice a ha).toDevice b hb
    have hg : (DeviceNet.toDevice b false (DeviceNet.toDevice a false s)).gpu c.store = s.gpu c.store := by
      rw [gpu_toDevice, if_neg hcb, gpu_toDevice, if_neg hca]
    have h2 : Inv size priv F (DeviceNet.toDevice c
        ((DeviceNet.toDevice b false (DeviceNet.toDevice a false s)).hint c.name && zero)
        (DeviceNet.toDevice b false (DeviceNet.toDevice a false s))) m
        (fun x => P x ∨ (zero = true ∧ s.gpu c.store ≠ true ∧ x.1 = c.store)) := by
      cases zero with
      | false =>
        rw [Bool.and_false]
        exact (h1.toDevice c hc).mono (fun _ h => h) fun _ _ h => .inl h
      | true =>
        refine (h1.toDevice_skip c _ hc).mono (fun _ h => h) ?_
        intro x _ hx
        rw [hg] at hx
        rcases hx with hx | hx
        · exact .inl hx
        · exact .inr ⟨rfl, by simp [hx.1], hx.2⟩
    have h3 := h2.runDevice hu
      (by
        intro st hst
        rw [gpu_toDevice, gpu_toDevice, gpu_toDevice]
        rcases hst with rfl | rfl | ⟨-, rfl⟩ <;> simp)
      (by rintro st rfl; rw [gpu_toDevice]; simp)
      (by
        rintro x hx (hp | ⟨hz, -, hxc⟩)
        · rcases (hu.rd x hx).1 with e | e | ⟨hz, e⟩
          · exact hpa x hp e
          · exact hpb x hp e
          · exact hpc hz x (hu.rd x hx).2 hp e
        · rcases (hu.rd x hx).1 with e | e | ⟨hz', e⟩
          · exact hca (hxc.symm.trans e)
          · exact hcb (hxc.symm.trans e)
          · rw [hz] at hz'; simp at hz')
    refine ⟨?_, ?_, ?_⟩
    · exact h3.setHint c false
    · show (DeviceNet.toDevice c _ (DeviceNet.toDevice b false (DeviceNet.toDevice a false s))).gpu c.store = true
      rw [gpu_toDevice]; simp
    · intro st h1 h2 h3
      show (DeviceNet.toDevice c _ (DeviceNet.toDevice b false (DeviceNet.toDevice a false s))).gpu st = _
      rw [gpu_toDevice, if_neg h3, gpu_toDevice, if_neg h2, gpu_toDevice, if_neg h1]
  | false =>
    have h1 := (h.toHost a).toHost b
    have hg : (DeviceNet.toHost b false (DeviceNet.toHost a false s)).gpu c.store = s.gpu c.store := by
      rw [gpu_toHost, if_neg hcb, gpu_toHost, if_neg hca]
    have h2 : Inv size priv F (DeviceNet.toHost c
        ((DeviceNet.toHost b false (DeviceNet.toHost a false s)).hint c.name && zero)
        (DeviceNet.toHost b false (DeviceNet.toHost a false s))) m
        (fun x => P x ∨ (zero = true ∧ s.gpu c.store ≠ false ∧ x.1 = c.store)) := by
      cases zero with
      | false =>
        rw [Bool.and_false]
        exact (h1.toHost c).mono (fun _ h => h) fun _ _ h => .inl h
      | true =>
        refine (h1.toHost_skip c _).mono (fun _ h => h) ?_
        intro x _ hx
        rw [hg] at hx
        rcases hx with hx | hx
        · exact .inl hx
        · exact .inr ⟨rfl, by simp [hx.1], hx.2⟩
    have h3 := h2.runHost hu
      (by
        intro st hst
        left
        rw [gpu_toHost, gpu_toHost, gpu_toHost]
        rcases hst with rfl | rfl | ⟨-, rfl⟩ <;> simp)
      (by rintro st rfl; rw [gpu_toHost]; simp)
      (by
        rintro x hx (hp | ⟨hz, -, hxc⟩)
        · rcases (hu.rd x hx).1 with e | e | ⟨hz, e⟩
          · exact hpa x hp e
          · exact hpb x hp e
          · exact hpc hz x (hu.rd x hx).2 hp e
        · rcases (hu.rd x hx).1 with e | e | ⟨hz', e⟩
          · exact hca (hxc.symm.trans e)
          · exact hcb (hxc.symm.trans e)
          · rw [hz] at hz'; simp at hz')
    refine ⟨?_, ?_, ?_⟩
    · exact (h3.setHint c false).mono (fun _ h => h.1) fun _ _ h => h
    · show (DeviceNet.toHost c _ (DeviceNet.toHost b false (DeviceNet.toHost a false s))).gpu c.store = false
      rw [gpu_toHost]; simp
    · intro st h1 h2 h3
      show (DeviceNet.toHost c _ (DeviceNet.toHost b false (DeviceNet.toHost a false s))).gpu st = _
      rw [gpu_toHost, if_neg h3, gpu_toHost, if_neg h2, gpu_toHost, if_neg h1]

theorem gpu_im2col (k : Kernel V) (src dst : Obj) {st : Nat} (h1 : st ≠ src.store) (h2 : st ≠ dst.store) :
    (im2col k src dst s).gpu st = s.gpu st := by
  unfold im2col
  rw [gpu_setHint]
  split
  · rw [gpu_runDevice, gpu_toDevice, if_neg h2, gpu_toDevice, if_neg h1]
  · rw [gpu_runHost, gpu_toHost, if_neg h2, gpu_toHost, if_neg h1]

theorem gpu_resample (k : Kernel V) (src dst : Obj) {st : Nat} (h1 : st ≠ src.store) (h2 : st ≠ dst.store) :
    (resample k src dst s).gpu st = s.gpu st := by
  unfold resample
  rw [gpu_setHint]
  split
  · rw [gpu_runDevice, gpu_toDevice, if_neg h2, gpu_toDevice, if_neg h1]
  · rw [gpu_runHost]

/-- The device part of `im2col` and `resample`. -/
theorem Inv.onDevice (h : Inv size priv F s m P) {k : Kernel V} {src dst : Obj}
    (hu : Uses size k (fun st => st = src.store) (fun st => st = dst.store))
    (hcov : Covers size k dst.store) (hd : src.store ≠ dst.store)
    (hps : ∀ x, P x → x.1 = src.store → False) (hs : ¬ priv src.store) (hdst : ¬ priv dst.store) :
    Inv size priv (fun st => F st ∧ st ≠ dst.store)
      (DeviceNet.runDevice k (DeviceNet.toDevice dst true (DeviceNet.toDevice src false s))) (k.exec m) P := by
  have h1 := ((h.toDevice src hs).toDevice_skip dst true hdst).runDevice hu
    (by rintro st rfl; rw [gpu_toDevice, gpu_toDevice]; simp)
    (by rintro st rfl; rw [gpu_toDevice]; simp)
    (by
      rintro x hx (hp | ⟨-, e⟩)
      · exact hps x hp (hu.rd x hx).1
      · exact hd ((hu.rd x hx).1.symm.trans e))
  refine h1.mono (fun _ h => h) ?_
  rintro x hx ⟨hp | ⟨-, e⟩, hw⟩
  · exact hp
  · exfalso
    apply hw
    have := hcov x.2 (by rw [← e]; exact hx)
    rw [← e] at this
    exact this

theorem Inv.im2col (h : Inv size priv F s m P) {k : Kernel V} {src dst : Obj}
    (hu : Uses size k (fun st => st = src.store) (fun st => st = dst.store))
    (hcov : Covers size k dst.store) (hd : src.store ≠ dst.store)
    (hps : ∀ x, P x → x.1 = src.store → False) (hs : ¬ priv src.store) (hdst : ¬ priv dst.store) :
    Inv size priv (fun st => F st ∧ st ≠ dst.store) (im2col k src dst s) (k.exec m) P := by
  unfold DeviceNet.im2col
  refine Inv.setHint ?_ _ _
  split
  · exact h.onDevice hu hcov hd hps hs hdst
  · have h1 := ((h.toHost src).toHost_skip dst true).runHost hu
      (by rintro st rfl; left; rw [gpu_toHost, gpu_toHost]; simp)
      (by rintro st rfl; rw [gpu_toHost]; simp)
      (by
        rintro x hx (hp | ⟨-, e⟩)
        · exact hps x hp (hu.rd x hx).1
        · exact hd ((hu.rd x hx).1.symm.trans e))
    refine h1.mono (fun _ h => h.1) ?_
    rintro x hx ⟨hp | ⟨-, e⟩, hw⟩
    · exact hp
    · exfalso
      apply hw
      have := hcov x.2 (by rw [← e]; exact hx)
      rw [← e] at this
      exact this

theorem Inv.resample (h : Inv size priv F s m P) {k : Kernel V} {src dst : Obj}
    (hu : Uses size k (fun st => st = src.store) (fun st => st = dst.store))
    (hcov : Covers size k dst.store) (hd : src.store ≠ dst.store)
    (hps : ∀ x, P x → x.1 = src.store → False) (hs : ¬ priv src.store) (hdst : ¬ priv dst.store)
    (hown : dst.shadow = false) (hsrc : src.shadow = true → F src.store) :
    Inv size priv (fun st => F st ∧ st ≠ dst.store) (resample k src dst s) (k.exec m) P := by
  unfold DeviceNet.resample
  refine Inv.setHint ?_ _ _
  split
  · exact h.onDevice hu hcov hd hps hs hdst
  · next hf =>
    simp only [flag, hown, Bool.not_false, Bool.true_and, Bool.or_eq_true, Bool.and_eq_true,
      Bool.not_eq_true', not_or, not_and, Bool.not_eq_true] at hf
    have h1 := h.runHost hu
      (by
        rintro st rfl
        cases hsh : src.shadow with
        | true => exact .inr (hsrc hsh)
        | false => exact .inl (hf.1 hsh))
      (by rintro st rfl; exact hf.2)
      (by
        intro x hx hp
        exact hps x hp (hu.rd x hx).1)
    exact h1.mono (fun _ h => h.1) fun _ _ h => h.1

end
end CN24.DeviceNet
