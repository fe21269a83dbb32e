import Verif.Model.Convolution
import Verif.Proof.Adjoint
import Verif.Proof.Gemm

namespace CN24.Convolution
open CN24 CN24.Tensor CN24.TensorMath

variable {R : Type _} [CommRing R]

omit [CommRing R] in
theorem offset_sample (t : Tensor R) (s : Nat) :
    t.offset 0 0 0 s = s * (t.maps * t.height * t.width) := by rw [offset_eq]; ring

omit [CommRing R] in
theorem _root_.CN24.Tensor.Is.len {t : Tensor R} {a b c d : Nat} (h : t.Is a b c d) : t.data.length = a * d * c * b := by
  obtain ⟨h1, h2, h3, h4, h5⟩ := h
  rw [h5, elements_eq, h1, h2, h3, h4]

omit [CommRing R] in
theorem _root_.CN24.Tensor.Is.fill' (a b c d : Nat) (v : R) : (Tensor.fill a b c d v).Is a b c d := by
  refine ⟨rfl, rfl, rfl, rfl, ?_⟩
  unfold WF Tensor.fill
  rw [List.length_replicate, elements_eq]

omit [CommRing R] in
theorem _root_.CN24.Tensor.Is.of_sh {t u : Tensor R} {a b c d : Nat} (h : t.Is a b c d) (hs : Sh t u)
    (hl : u.data.length = t.data.length) : u.Is a b c d := by
  obtain ⟨h1, h2, h3, h4, h5⟩ := h
  obtain ⟨e1, e2, e3, e4⟩ := hs
  refine ⟨by omega, by omega, by omega, by omega, ?_⟩
  unfold WF at *
  rw [hl, h5, elements_eq, elements_eq, e1, e2, e3, e4]

/-- Arithmetic of the group offsets. -/
theorem group_arith {G OG IG K g : Nat} (hG : 0 < G) :
    (G * OG) / G = OG ∧ (g * (G * OG)) / G = g * OG ∧ (K * (G * IG)) / G = K * IG ∧
      (K * (G * IG) * g) / G = g * (K * IG) := by
  refine ⟨Nat.mul_div_cancel_left _ hG, ?_, ?_, ?_⟩
  · rw [show g * (G * OG) = G * (g * OG) by ring, Nat.mul_div_cancel_left _ hG]
  · rw [show K * (G * IG) = G * (K * IG) by ring, Nat.mul_div_cancel_left _ hG]
  · rw [show K * (G * IG) * g = G * (g * (K * IG)) by ring, Nat.mul_div_cancel_left _ hG]

section
variable {R : Type _} [Zero R] [Add R] [Mul R]

omit [Zero R] [Add R] [Mul R] in
/-- Rows `om < g * M` of a matrix with `N` columns have their final values. -/
def GroupInv (M N : Nat) (val : Nat → Nat → R) (C0 : Tensor R) (g : Nat) (C : Tensor R) : Prop :=
  Sh C0 C ∧ C.data.length = C0.data.length ∧
    ∀ om j, om < g * M → j < N → C.data[om * N + j]? = some (val om j)

variable [DecidableEq R]

theorem group_step_fold {G M N K g smA ldA smB ldB : Nat} {tA tB : Bool} {w : R}
    {val : Nat → Nat → R} {A B C0 C1 : Tensor R} (hg : g < G)
    (hC : C0.data.length = G * M * N) (hCs : C0.maps * C0.height * C0.width = N)
    (hinv : GroupInv M N val C0 g C1)
    (hA : ∀ i k, i < M → k < K →
      A.offset 0 0 0 smA + (if tA then k * ldA + i else i * ldA + k) < A.data.length)
    (hB : ∀ k j, k < K → j < N →
      B.offset 0 0 0 smB + (if tB then j * ldB + k else k * ldB + j) < B.data.length)
    (hval : ∀ i j, i < M → j < N → val (g * M + i) j = w * sumTo (fun k =>
      A.data.getD (A.offset 0 0 0 smA + if tA then k * ldA + i else i * ldA + k) 0 *
      B.data.getD (B.offset 0 0 0 smB + if tB then j * ldB + k else k * ldB + j) 0) K) :
    ∃ C2, gemm true tA tB M N K w A smA ldA B smB ldB 0 C1 (g * M) N = .done C2 ∧
      GroupInv M N val C0 (g + 1) C2 := by
  obtain ⟨hsh, hlen, hv⟩ := hinv
  have hC1s : C1.maps * C1.height * C1.width = N := by
    rw [hsh.2.2.2, hsh.2.2.1, hsh.2.1] at hCs; exact hCs
  have hidx : ∀ i j, C1.offset 0 0 0 (g * M) + (N * i + j) = (g * M + i) * N + j := by
    intro i j; rw [offset_sample, hC1s]; ring
  obtain ⟨C2, h1, h2, h3, h4, h5⟩ := gemm_fold_spec (tA := tA) (tB := tB) (M := M) (N := N)
    (K := K) (alpha := w) (beta := 0) (A := A) (B := B) (C := C1) (smA := smA) (ldA := ldA)
    (smB := smB) (ldB := ldB) (smC := g * M) (ldC := N) hA hB
    (by
      intro i j hi hj
      rw [hidx, hlen, hC]
      exact radix_lt (radix_lt hg hi) hj) (Nat.le_refl N)
  refine ⟨C2, h1, hsh.trans h2, by rw [h3, hlen], ?_⟩
  intro om j hom hj
  by_cases hlt : om < g * M
  · rw [h5 (om * N + j), hv om j hlt hj]
    intro i j' hi hj' he
    rw [hidx] at he
    have := (radix_inj hj hj' he).1
    omega
  · have hi : om - g * M < M := by rw [Nat.succ_mul] at hom; omega
    have hom' : g * M + (om - g * M) = om := by omega
    have := h4 (om - g * M) j hi hj
    rw [hidx, hom'] at this
    rw [this, gemmValue, if_pos rfl, ← hval _ _ hi hj, hom']

theorem add_div_group {M g i : Nat} (hi : i < M) : (g * M + i) / M = g := by
  rw [Nat.add_comm, Nat.add_mul_div_right _ _ (by omega), Nat.div_eq_of_lt hi]; omega

/-- The loop over the groups in the forward pass, on flat buffers. -/
theorem group_forward_fold {G OG KK L : Nat} {w : R} {W P C : Tensor R}
    (hW : W.data.length = G * OG * KK) (hWs : W.maps * W.height * W.width = KK)
    (hP : P.data.length = G * KK * L) (hPs : P.maps * P.height * P.width = L)
    (hC : C.data.length = G * OG * L) (hCs : C.maps * C.height * C.width = L) :
    ∃ C', forO G (fun g C => gemm true false false OG L KK w W (g * OG) KK P (g * KK) L 0 C
        (g * OG) L) C = .done C' ∧
      GroupInv OG L (fun om j => w * sumTo (fun k => W.data.getD (om * KK + k) 0 *
          P.data.getD ((om / OG * KK + k) * L + j) 0) KK) C G C' := by
  refine forO_inv (GroupInv OG L _ C) ⟨Sh.rfl' C, rfl, by intro om j h; simp at h⟩ ?_
  intro g C1 hg hinv
  refine group_step_fold hg hC hCs hinv ?_ ?_ ?_
  · intro i k hi hk
    rw [offset_sample, hWs, hW]
    have := radix_lt (radix_lt hg hi) hk
    simp only [Bool.false_eq_true, if_false]
    calc _ = (g * OG + i) * KK + k := by ring
      _ < _ := this
  · intro k j hk hj
    rw [offset_sample, hPs, hP]
    have := radix_lt (radix_lt hg hk) hj
    simp only [Bool.false_eq_true, if_false]
    calc _ = (g * KK + k) * L + j := by ring
      _ < _ := this
  · intro i j hi hj
    congr 1
    refine sumTo_congr fun k _ => ?_
    simp only [Bool.false_eq_true, if_false]
    rw [offset_sample, offset_sample, hWs, hPs, add_div_group hi]
    congr 2 <;> ring

end

variable [DecidableEq R]

theorem group_step {G M N K g smA ldA smB ldB : Nat} {tA tB : Bool} {w : R}
    {val : Nat → Nat → R} {A B C0 C1 : Tensor R} (hg : g < G)
    (hC : C0.data.length = G * M * N) (hCs : C0.maps * C0.height * C0.width = N)
    (hinv : GroupInv M N val C0 g C1)
    (hA : ∀ i k, i < M → k < K →
      A.offset 0 0 0 smA + (if tA then k * ldA + i else i * ldA + k) < A.data.length)
    (hB : ∀ k j, k < K → j < N →
      B.offset 0 0 0 smB + (if tB then j * ldB + k else k * ldB + j) < B.data.length)
    (hval : ∀ i j, i < M → j < N → val (g * M + i) j = w * ∑ k ∈ Finset.range K,
      A.data.getD (A.offset 0 0 0 smA + if tA then k * ldA + i else i * ldA + k) 0 *
      B.data.getD (B.offset 0 0 0 smB + if tB then j * ldB + k else k * ldB + j) 0) :
    ∃ C2, gemm true tA tB M N K w A smA ldA B smB ldB 0 C1 (g * M) N = .done C2 ∧
      GroupInv M N val C0 (g + 1) C2 := by
  refine group_step_fold hg hC hCs hinv hA hB ?_
  intro i j hi hj
  rw [hval i j hi hj, sumTo_eq]

/-- The loop over the groups in the backward pass, on flat buffers. -/
theorem group_backward {G OG KK L : Nat} {W P S D dW : Tensor R} (bp : Bool)
    (hW : W.data.length = G * OG * KK) (hWs : W.maps * W.height * W.width = KK)
    (hP : P.data.length = G * KK * L) (hPs : P.maps * P.height * P.width = L)
    (hS : S.data.length = G * OG * L) (hSs : S.maps * S.height * S.width = L)
    (hD : D.data.length = G * KK * L) (hDs : D.maps * D.height * D.width = L)
    (hdW : dW.data.length = G * OG * KK) (hdWs : dW.maps * dW.height * dW.width = KK) :
    ∃ D' dW', forO G (fun g (s : Tensor R × Tensor R) =>
        (if bp then gemm true true false KK L OG 1 W (g * OG) KK S (g * OG) L 0 s.1 (g * KK) L
          else .done s.1).bind fun deltax =>
        (gemm true false true OG KK L 1 S (g * OG) L P (g * KK) L 0 s.2 (g * OG) KK).bind fun dw =>
        .done (deltax, dw)) (D, dW) = .done (D', dW') ∧
      (if bp then GroupInv KK L (fun tm j => ∑ o ∈ Finset.range OG,
          W.data.getD ((tm / KK * OG + o) * KK + tm % KK) 0 *
          S.data.getD ((tm / KK * OG + o) * L + j) 0) D G D' else D' = D) ∧
      GroupInv OG KK (fun om k => ∑ j ∈ Finset.range L, S.data.getD (om * L + j) 0 *
          P.data.getD ((om / OG * KK + k) * L + j) 0) dW G dW' := by
  obtain ⟨⟨D', dW'⟩, h1, h2⟩ := forO_inv (n := G) (s := (D, dW))
    (f := fun g (s : Tensor R × Tensor R) =>
        (if bp then gemm true true false KK L OG 1 W (g * OG) KK S (g * OG) L 0 s.1 (g * KK) L
          else .done s.1).bind fun deltax =>
        (gemm true false true OG KK L 1 S (g * OG) L P (g * KK) L 0 s.2 (g * OG) KK).bind fun dw =>
        .done (deltax, dw))
    (fun g s => (if bp then GroupInv KK L (fun tm j => ∑ o ∈ Finset.range OG,
          W.data.getD ((tm / KK * OG + o) * KK + tm % KK) 0 *
          S.data.getD ((tm / KK * OG + o) * L + j) 0) D g s.1 else s.1 = D) ∧
      GroupInv OG KK (fun om k => ∑ j ∈ Finset.range L, S.data.getD (om * L + j) 0 *
          P.data.getD ((om / OG * KK + k) * L + j) 0) dW g s.2)
    (by
      refine ⟨?_, Sh.rfl' dW, rfl, by intro om j h; simp at h⟩
      cases bp
      · rfl
      · exact ⟨Sh.rfl' D, rfl, by intro om j h; simp at h⟩)
    (by
      rintro g ⟨D1, dW1⟩ hg ⟨hinv1, hinv2⟩
      have hb2 : ∃ C2, gemm true false true OG KK L 1 S (g * OG) L P (g * KK) L 0 dW1 (g * OG) KK =
          .done C2 ∧ GroupInv OG KK (fun om k => ∑ j ∈ Finset.range L, S.data.getD (om * L + j) 0 *
          P.data.getD ((om / OG * KK + k) * L + j) 0) dW (g + 1) C2 := by
        refine group_step hg hdW hdWs hinv2 ?_ ?_ ?_
        · intro i k hi hk
          rw [offset_sample, hSs, hS]
          have := radix_lt (radix_lt hg hi) hk
          simp only [Bool.false_eq_true, if_false]
          calc _ = (g * OG + i) * L + k := by ring
            _ < _ := this
        · intro k j hk hj
          rw [offset_sample, hPs, hP]
          have := radix_lt (radix_lt hg hj) hk
          simp only [if_true]
          calc _ = (g * KK + j) * L + k := by ring
            _ < _ := this
        · intro i j hi hj
          rw [one_mul]
          refine Finset.sum_congr rfl fun k _ => ?_
          simp only [Bool.false_eq_true, if_false, if_true]
          rw [offset_sample, offset_sample, hSs, hPs, add_div_group hi]
          congr 2 <;> ring
      obtain ⟨dW2, e2, i2⟩ := hb2
      cases bp with
      | false =>
        simp only [Bool.false_eq_true, if_false] at hinv1 ⊢
        exact ⟨(D1, dW2), by simp [e2], hinv1, i2⟩
      | true =>
        simp only [if_true] at hinv1 ⊢
        have hb1 : ∃ C2, gemm true true false KK L OG 1 W (g * OG) KK S (g * OG) L 0 D1 (g * KK) L =
            .done C2 ∧ GroupInv KK L (fun tm j => ∑ o ∈ Finset.range OG,
              W.data.getD ((tm / KK * OG + o) * KK + tm % KK) 0 *
              S.data.getD ((tm / KK * OG + o) * L + j) 0) D (g + 1) C2 := by
          refine group_step hg hD hDs hinv1 ?_ ?_ ?_
          · intro i k hi hk
            rw [offset_sample, hWs, hW]
            have := radix_lt (radix_lt hg hk) hi
            simp only [if_true]
            calc _ = (g * OG + k) * KK + i := by ring
              _ < _ := this
          · intro k j hk hj
            rw [offset_sample, hSs, hS]
            have := radix_lt (radix_lt hg hk) hj
            simp only [Bool.false_eq_true, if_false]
            calc _ = (g * OG + k) * L + j := by ring
              _ < _ := this
          · intro i j hi hj
            rw [one_mul]
            refine Finset.sum_congr rfl fun k _ => ?_
            simp only [Bool.false_eq_true, if_false, if_true]
            have hmod : (g * KK + i) % KK = i := by
              rw [Nat.add_comm, Nat.add_mul_mod_self_right, Nat.mod_eq_of_lt hi]
            rw [offset_sample, offset_sample, hWs, hSs, add_div_group hi, hmod]
            congr 2 <;> ring
        obtain ⟨D2, e1, i1⟩ := hb1
        exact ⟨(D2, dW2), by simp [e1, e2], i1, i2⟩)
  exact ⟨D', dW', h1, h2⟩

omit [CommRing R] [DecidableEq R] in
theorem col_decompose (c : ColShape) {kx ky : Nat} (map : Nat) (hkx : kx < c.kernelWidth)
    (hky : ky < c.kernelHeight) :
    (∀ ox, c.ix ((map * c.kernelHeight + ky) * c.kernelWidth + kx) ox =
      (ox : Int) * c.strideWidth + kx - c.padWidth) ∧
    (∀ oy, c.iy ((map * c.kernelHeight + ky) * c.kernelWidth + kx) oy =
      (oy : Int) * c.strideHeight + ky - c.padHeight) ∧
    c.imap ((map * c.kernelHeight + ky) * c.kernelWidth + kx) = map := by
  have hkw : 0 < c.kernelWidth := by omega
  have hkh : 0 < c.kernelHeight := by omega
  have e1 : ((map * c.kernelHeight + ky) * c.kernelWidth + kx) % c.kernelWidth = kx := by
    rw [Nat.add_comm, Nat.add_mul_mod_self_right, Nat.mod_eq_of_lt hkx]
  have e2 : ((map * c.kernelHeight + ky) * c.kernelWidth + kx) / c.kernelWidth =
      map * c.kernelHeight + ky := by
    rw [Nat.add_comm, Nat.add_mul_div_right _ _ hkw, Nat.div_eq_of_lt hkx, Nat.zero_add]
  have e3 : (map * c.kernelHeight + ky) % c.kernelHeight = ky := by
    rw [Nat.add_comm, Nat.add_mul_mod_self_right, Nat.mod_eq_of_lt hky]
  have e4 : (map * c.kernelHeight + ky) / c.kernelHeight = map := by
    rw [Nat.add_comm, Nat.add_mul_div_right _ _ hkh, Nat.div_eq_of_lt hky, Nat.zero_add]
  refine ⟨fun ox => ?_, fun oy => ?_, ?_⟩
  · unfold ColShape.ix; rw [e1]; ring
  · unfold ColShape.iy; rw [e2, e3]; ring
  · unfold ColShape.imap; rw [← Nat.div_div_eq_div_mul, e2, e4]

omit [DecidableEq R] [CommRing R] in
theorem getD_of_getElem? [Zero R] {b : List R} {i : Nat} {v : R} (h : b[i]? = some v) : b.getD i 0 = v := by
  rw [List.getD_eq_getElem?_getD, h]; rfl

/-- Value of the convolution (without bias) at one position, `x` being the image. -/
def convAt (W x : Tensor R) (p : Params) (IG OG ox oy om s : Nat) : R :=
  ∑ im ∈ Finset.range IG, ∑ ky ∈ Finset.range p.kernelHeight, ∑ kx ∈ Finset.range p.kernelWidth,
    W.val kx ky im om *
      padded x ((ox : Int) * p.strideWidth + kx - p.padWidth)
        ((oy : Int) * p.strideHeight + ky - p.padHeight) (om / OG * IG + im) s

variable {l : Layer R}

omit [DecidableEq R] [CommRing R] in
theorem fits_source {x : Tensor R}
    (hx : x.Is l.input.samples l.inputWidth l.inputHeight l.inputMaps) : l.shape.FitsSource x := by
  obtain ⟨h1, h2, h3, h4, h5⟩ := hx
  exact ⟨h5, h2, h3, h4, h1⟩

section
variable {R : Type _} [Zero R] [One R] [Add R] [Mul R] [Sub R] [DecidableEq R] {l : Layer R}

omit [Zero R] [Add R] [Mul R] [Sub R] [DecidableEq R] in
theorem fits_target (h : l.Connected) {x : Tensor R}
    (hx : x.Is l.kernelSize l.outputWidth l.outputHeight l.input.samples) : l.shape.FitsTarget x := by
  obtain ⟨h1, h2, h3, h4, h5⟩ := hx
  refine ⟨h5, h1, h4, ?_, ?_⟩
  · rw [h2]; exact h.width
  · rw [h3]; exact h.height

/-- The `k`-th product of the convolution (without bias) at one position, `x` being the image: the elements of the kernel
are counted row by row and map by map. -/
def termAt (W x : Tensor R) (p : Params) (IG OG ox oy om s k : Nat) : R :=
  W.val (k % p.kernelWidth) (k / p.kernelWidth % p.kernelHeight) (k / (p.kernelWidth * p.kernelHeight)) om *
    padded x ((ox : Int) * p.strideWidth + ((k % p.kernelWidth : Nat) : Int) - p.padWidth)
      ((oy : Int) * p.strideHeight + ((k / p.kernelWidth % p.kernelHeight : Nat) : Int) - p.padHeight)
      (om / OG * IG + k / (p.kernelWidth * p.kernelHeight)) s

omit [One R] [Add R] [Sub R] [DecidableEq R] in
/-- One product of a row of weights and a column of the column tensor. -/
theorem row_col_term {P x : Tensor R} {IG OG : Nat}
    (hIG : l.inputMaps = l.params.group * IG)
    (hP : P.Is l.kernelSize l.outputWidth l.outputHeight l.input.samples)
    (hval : ∀ ox oy s tm, ox < l.outputWidth → oy < l.outputHeight → s < l.input.samples →
      tm < l.kernelSize → P.val ox oy s tm =
        padded x (l.shape.ix tm ox) (l.shape.iy tm oy) (l.shape.imap tm) s)
    {W : Tensor R} (hW : W.Is l.params.outputMaps l.params.kernelWidth l.params.kernelHeight IG)
    {ox oy om s k : Nat} (hox : ox < l.outputWidth) (hoy : oy < l.outputHeight)
    (hs : s < l.input.samples) (hg : om / OG < l.params.group)
    (hk : k < l.params.kernelWidth * l.params.kernelHeight * IG) :
    W.data.getD (om * (l.params.kernelWidth * l.params.kernelHeight * IG) + k) 0 *
      P.data.getD ((om / OG * (l.params.kernelWidth * l.params.kernelHeight * IG) + k) *
        l.positions + ((s * l.outputHeight + oy) * l.outputWidth + ox)) 0 =
    termAt W x l.params IG OG ox oy om s k := by
  have hkw : 0 < l.params.kernelWidth := by
    rcases Nat.eq_zero_or_pos l.params.kernelWidth with h0 | h0
    · rw [h0] at hk; simp at hk
    · exact h0
  have hkh : 0 < l.params.kernelHeight := by
    rcases Nat.eq_zero_or_pos l.params.kernelHeight with h0 | h0
    · rw [h0] at hk; simp at hk
    · exact h0
  have hkx := Nat.mod_lt k hkw
  have hky := Nat.mod_lt (k / l.params.kernelWidth) hkh
  have him : k / (l.params.kernelWidth * l.params.kernelHeight) < IG := by
    rw [Nat.div_lt_iff_lt_mul (Nat.mul_pos hkw hkh), Nat.mul_comm]; exact hk
  have e0 : k = (k / (l.params.kernelWidth * l.params.kernelHeight) * l.params.kernelHeight +
      k / l.params.kernelWidth % l.params.kernelHeight) * l.params.kernelWidth + k % l.params.kernelWidth := by
    rw [← Nat.div_div_eq_div_mul, Nat.div_add_mod', Nat.div_add_mod']
  unfold termAt
  generalize hx' : k % l.params.kernelWidth = kx at *
  generalize hy' : k / l.params.kernelWidth % l.params.kernelHeight = ky at *
  generalize hm' : k / (l.params.kernelWidth * l.params.kernelHeight) = im at *
  subst e0
  obtain ⟨w1, w2, w3, w4, _⟩ := hW
  obtain ⟨p1, p2, p3, p4, _⟩ := hP
  congr 1
  · unfold val
    rw [offset_eq, w2, w3, w4]
    congr 1
    ring
  · have htm : ((om / OG * IG + im) * l.params.kernelHeight + ky) * l.params.kernelWidth + kx <
        l.kernelSize := by
      unfold Layer.kernelSize
      have := radix_lt (radix_lt (radix_lt hg him) hky) hkx
      rw [hIG]
      calc _ < _ := this
        _ = _ := by ring
    obtain ⟨d1, d2, d3⟩ := col_decompose l.shape (om / OG * IG + im) (kx := kx) (ky := ky) hkx hky
    have := hval ox oy s _ hox hoy hs htm
    have h1 := d1 ox
    have h2 := d2 oy
    change l.shape.ix (((om / OG * IG + im) * l.params.kernelHeight + ky) * l.params.kernelWidth + kx) ox = _ at h1
    change l.shape.iy (((om / OG * IG + im) * l.params.kernelHeight + ky) * l.params.kernelWidth + kx) oy = _ at h2
    change l.shape.imap (((om / OG * IG + im) * l.params.kernelHeight + ky) * l.params.kernelWidth + kx) = _ at d3
    rw [h1, h2, d3] at this
    change _ = padded x ((ox : Int) * l.params.strideWidth + kx - l.params.padWidth)
        ((oy : Int) * l.params.strideHeight + ky - l.params.padHeight) (om / OG * IG + im) s at this
    rw [← this]
    unfold val
    rw [offset_eq, p2, p3, p4]
    unfold Layer.positions
    congr 1
    ring

/-- The forward pass with the operations in the order of the code, for any arithmetic. -/
theorem forward_fold_spec (h : l.Connected) (testing : Bool)
    (hp : testing = true ∨ l.dropout = 0) :
    ∃ l', l.feedForward testing = .done l' ∧
      (∃ a b c, l' = { l with im2colFf := a, smsFf := b, output := c }) ∧ l'.Connected ∧
      im2col l.shape l.input l.im2colFf = .done l'.im2colFf ∧
      (∀ ox oy s tm, ox < l.outputWidth → oy < l.outputHeight → s < l.input.samples →
        tm < l.kernelSize → l'.im2colFf.val ox oy s tm =
          padded l.input (l.shape.ix tm ox) (l.shape.iy tm oy) (l.shape.imap tm) s) ∧
      ∀ ox oy om s, l.output.InRange ox oy om s →
        l'.output.get ox oy om s = some (gemmValue (if testing then 1 - l.dropout else 1) 1
          ((if testing then 1 - l.dropout else 1) *
            sumTo (termAt l.weights l.input l.params (l.inputMaps / l.params.group)
              (l.params.outputMaps / l.params.group) ox oy om s)
              (l.params.kernelWidth * l.params.kernelHeight * (l.inputMaps / l.params.group)))
          (0 + l.bias.val om 0 0 0 * 1)) := by
  obtain ⟨OG, hOG⟩ := h.group_out
  obtain ⟨IG, hIG⟩ := h.group_in
  have hG := h.group_pos
  have hIG' : l.inputMaps / l.params.group = IG := by rw [hIG, Nat.mul_div_cancel_left _ hG]
  have hOG' : l.params.outputMaps / l.params.group = OG := by rw [hOG, Nat.mul_div_cancel_left _ hG]
  obtain ⟨P, hP1, hP2, hP3, hP4⟩ := im2col_spec h.stride.1 h.stride.2
    (fits_source h.input) (fits_target h h.im2colFf)
  have hPI : P.Is l.kernelSize l.outputWidth l.outputHeight l.input.samples := by
    refine h.im2colFf.of_sh hP2 ?_
    rw [hP3, h.im2colFf.2.2.2.2, hP2.elements]
  have hPv : ∀ ox oy s tm, ox < l.outputWidth → oy < l.outputHeight → s < l.input.samples →
      tm < l.kernelSize → P.val ox oy s tm =
        padded l.input (l.shape.ix tm ox) (l.shape.iy tm oy) (l.shape.imap tm) s := by
    intro ox oy s tm h1 h2 h3 h4
    exact val_of_get (hP4 ox oy s tm (by rw [h.im2colFf.2.1]; exact h1)
      (by rw [h.im2colFf.2.2.1]; exact h2) h3 h4)
  have hW : l.weights.Is l.params.outputMaps l.params.kernelWidth l.params.kernelHeight IG := by
    have := h.weights; rw [hIG'] at this; exact this
  generalize hw : (if testing = true then 1 - l.dropout else (1 : R)) = w
  obtain ⟨C, hC1, hC2, hC3, hC4⟩ := group_forward_fold (G := l.params.group) (OG := OG)
    (KK := l.params.kernelWidth * l.params.kernelHeight * IG) (L := l.positions) (w := w)
    (W := l.weights) (P := P) (C := l.smsFf)
    (by rw [hW.len, hOG]; ring)
    (by rw [hW.2.2.2.1, hW.2.2.1, hW.2.1]; ring)
    (by rw [hPI.len]; unfold Layer.kernelSize Layer.positions; rw [hIG]; ring)
    (by rw [hPI.2.2.2.1, hPI.2.2.1, hPI.2.1]; unfold Layer.positions; ring)
    (by rw [h.smsFf.len]; unfold Layer.positions; rw [hOG]; ring)
    (by rw [h.smsFf.2.2.2.1, h.smsFf.2.2.1, h.smsFf.2.1]; unfold Layer.positions; ring)
  have hCI : C.Is l.params.outputMaps l.outputWidth l.outputHeight l.input.samples :=
    h.smsFf.of_sh hC2 hC3
  have hClen : C.data.length = l.params.outputMaps * l.positions := by
    rw [hCI.len]; unfold Layer.positions; ring
  obtain ⟨D, hD1, hD2, hD3, hD4, _⟩ := gemm_fold_spec (tA := false) (tB := false)
    (M := l.params.outputMaps) (N := l.positions) (K := 1) (alpha := w) (beta := 1) (A := l.bias)
    (B := l.ones) (C := C) (smA := 0) (ldA := 1) (smB := 0) (ldB := l.positions) (smC := 0)
    (ldC := l.positions)
    (by
      intro i k hi hk
      rw [offset_sample, h.bias.len]
      simp only [Bool.false_eq_true, if_false]
      omega)
    (by
      intro k j hk hj
      rw [offset_sample, h.ones.len]
      have : k = 0 := by omega
      subst this
      simp only [Bool.false_eq_true, if_false]
      omega)
    (by
      intro i j hi hj
      rw [offset_sample, hClen]
      have := radix_lt hi hj
      calc _ = i * l.positions + j := by ring
        _ < _ := this) (Nat.le_refl _)
  have hDI := hCI.of_sh hD2 hD3
  obtain ⟨out, hO1, hO2, hO3, hO4⟩ := sms_spec (source := D) (target := l.output) hDI.2.2.2.2
    h.output.2.2.2.2 (by rw [hDI.2.1, h.output.2.1]) (by rw [hDI.2.2.1, h.output.2.2.1])
    (by rw [hDI.1, h.output.2.2.2.1]) (by rw [hDI.2.2.2.1, h.output.1])
  have hOI : out.Is l.input.samples l.outputWidth l.outputHeight l.params.outputMaps := by
    refine h.output.of_sh hO2 ?_
    rw [hO3, h.output.2.2.2.2, hO2.elements]
  refine ⟨{ l with im2colFf := P, smsFf := D, output := out }, ?_, ⟨_, _, _, rfl⟩, ?_, hP1, hPv, ?_⟩
  · unfold Layer.feedForward
    simp only [hP1, Outcome.bind_done, hw]
    have hf : (fun g sms => gemm true false false (l.params.outputMaps / l.params.group)
        l.positions (l.kernelSize / l.params.group) w l.weights
        (g * l.params.outputMaps / l.params.group) (l.kernelSize / l.params.group) P
        (l.kernelSize * g / l.params.group) l.positions 0 sms
        (g * l.params.outputMaps / l.params.group) l.positions) =
      (fun g C => gemm true false false OG l.positions
        (l.params.kernelWidth * l.params.kernelHeight * IG) w l.weights (g * OG)
        (l.params.kernelWidth * l.params.kernelHeight * IG) P
        (g * (l.params.kernelWidth * l.params.kernelHeight * IG)) l.positions 0 C (g * OG)
        l.positions) := by
      funext g C
      unfold Layer.kernelSize
      rw [hIG, hOG]
      obtain ⟨a1, a2, a3, a4⟩ := group_arith (OG := OG) (IG := IG)
        (K := l.params.kernelWidth * l.params.kernelHeight) (g := g) hG
      rw [a1, a2, a3, a4]
    rw [hf, hC1, Outcome.bind_done, hD1, Outcome.bind_done, hO1]
    simp only [Outcome.ofOption_some, Outcome.bind_done]
    rw [if_pos]
    rcases hp with hp | hp
    · rw [hp]; rfl
    · rw [hp]; cases testing <;> rfl
  · exact { h with im2colFf := hPI, smsFf := hDI, output := hOI }
  · rintro ox oy om s ⟨i1, i2, i3, i4⟩
    have i1' := i1; have i2' := i2; have i3' := i3; have i4' := i4
    rw [h.output.2.1] at i1'
    rw [h.output.2.2.1] at i2'
    rw [h.output.2.2.2.1] at i3'
    rw [h.output.1] at i4'
    rw [hO4 ox oy om s ⟨i1, i2, i3, i4⟩]
    have hj : (s * l.outputHeight + oy) * l.outputWidth + ox < l.positions := by
      have := radix_lt (radix_lt i4' i2') i1'
      unfold Layer.positions
      calc _ < _ := this
        _ = _ := by ring
    have hg : om / OG < l.params.group := by
      rw [hOG] at i3'
      have : 0 < OG := by rcases Nat.eq_zero_or_pos OG with h0 | h0
                          · rw [h0] at i3'; simp at i3'
                          · exact h0
      exact (Nat.div_lt_iff_lt_mul this).2 i3'
    have d4 := hD4 om _ i3' hj
    rw [offset_sample, Nat.zero_mul, Nat.zero_add, Nat.mul_comm l.positions] at d4
    have c4 := hC4 om _ (by rw [hOG] at i3'; exact i3') hj
    rw [getD_of_getElem? c4] at d4
    beta_reduce at d4
    have hoff : D.offset ox oy s om = om * l.positions + ((s * l.outputHeight + oy) * l.outputWidth + ox) := by
      rw [offset_eq, hDI.2.1, hDI.2.2.1, hDI.2.2.2.1]
      unfold Layer.positions; ring
    show rd D.data _ = _
    unfold rd
    rw [hoff, d4]
    congr 1
    rw [hIG', hOG']
    rw [sumTo_congr (fun k hk => row_col_term hIG hPI hPv hW i1' i2' i4' hg hk)]
    congr 1
    show sumTo _ 0 + _ = _
    simp only [Bool.false_eq_true, if_false]
    have ho : l.ones.data.getD (l.ones.offset 0 0 0 0 + (0 * l.positions +
        ((s * l.outputHeight + oy) * l.outputWidth + ox))) 0 = 1 := by
      rw [offset_sample, List.getD_eq_getElem?_getD]
      have hlt : 0 * (l.ones.maps * l.ones.height * l.ones.width) + (0 * l.positions +
          ((s * l.outputHeight + oy) * l.outputWidth + ox)) < l.ones.data.length := by
        rw [h.ones.len]; omega
      rw [List.getElem?_eq_getElem hlt, Option.getD_some]
      exact h.ones_one _ (List.getElem_mem hlt)
    rw [ho]
    have hb : l.bias.data.getD (l.bias.offset 0 0 0 0 + (om * 1 + 0)) 0 = l.bias.val om 0 0 0 := by
      unfold val
      rw [offset_eq, offset_eq]
      congr 1
      ring
    rw [hb]
    rfl

end

omit [DecidableEq R] in
/-- The product of one row of weights with one column of the column tensor. -/
theorem row_col_sum {P x : Tensor R} {IG OG : Nat}
    (hIG : l.inputMaps = l.params.group * IG)
    (hP : P.Is l.kernelSize l.outputWidth l.outputHeight l.input.samples)
    (hval : ∀ ox oy s tm, ox < l.outputWidth → oy < l.outputHeight → s < l.input.samples →
      tm < l.kernelSize → P.val ox oy s tm =
        padded x (l.shape.ix tm ox) (l.shape.iy tm oy) (l.shape.imap tm) s)
    {W : Tensor R} (hW : W.Is l.params.outputMaps l.params.kernelWidth l.params.kernelHeight IG)
    {ox oy om s : Nat} (hox : ox < l.outputWidth) (hoy : oy < l.outputHeight)
    (hs : s < l.input.samples) (hg : om / OG < l.params.group) :
    ∑ k ∈ Finset.range (l.params.kernelWidth * l.params.kernelHeight * IG),
      W.data.getD (om * (l.params.kernelWidth * l.params.kernelHeight * IG) + k) 0 *
      P.data.getD ((om / OG * (l.params.kernelWidth * l.params.kernelHeight * IG) + k) *
        l.positions + ((s * l.outputHeight + oy) * l.outputWidth + ox)) 0 =
    convAt W x l.params IG OG ox oy om s := by
  have e : l.params.kernelWidth * l.params.kernelHeight * IG =
      IG * l.params.kernelHeight * l.params.kernelWidth := by ring
  rw [e, sum_range_mul, sum_range_mul]
  unfold convAt
  refine Finset.sum_congr rfl fun im him => Finset.sum_congr rfl fun ky hky =>
    Finset.sum_congr rfl fun kx hkx => ?_
  simp only [Finset.mem_range] at him hky hkx
  obtain ⟨w1, w2, w3, w4, _⟩ := hW
  obtain ⟨p1, p2, p3, p4, _⟩ := hP
  congr 1
  · unfold val
    rw [offset_eq, w2, w3, w4]
    congr 1
    ring
  · have htm : ((om / OG * IG + im) * l.params.kernelHeight + ky) * l.params.kernelWidth + kx <
        l.kernelSize := by
      unfold Layer.kernelSize
      have := radix_lt (radix_lt (radix_lt hg him) hky) hkx
      rw [hIG]
      calc _ < _ := this
        _ = _ := by ring
    obtain ⟨d1, d2, d3⟩ := col_decompose l.shape (om / OG * IG + im) (kx := kx) (ky := ky) hkx hky
    have := hval ox oy s _ hox hoy hs htm
    have h1 := d1 ox
    have h2 := d2 oy
    change l.shape.ix (((om / OG * IG + im) * l.params.kernelHeight + ky) * l.params.kernelWidth + kx) ox = _ at h1
    change l.shape.iy (((om / OG * IG + im) * l.params.kernelHeight + ky) * l.params.kernelWidth + kx) oy = _ at h2
    change l.shape.imap (((om / OG * IG + im) * l.params.kernelHeight + ky) * l.params.kernelWidth + kx) = _ at d3
    rw [h1, h2, d3] at this
    change _ = padded x ((ox : Int) * l.params.strideWidth + kx - l.params.padWidth)
        ((oy : Int) * l.params.strideHeight + ky - l.params.padHeight) (om / OG * IG + im) s at this
    rw [← this]
    unfold val
    rw [offset_eq, p2, p3, p4]
    unfold Layer.positions
    congr 1
    ring

omit [DecidableEq R] in
theorem sum_termAt (W x : Tensor R) (p : Params) (IG OG ox oy om s : Nat) :
    ∑ k ∈ Finset.range (p.kernelWidth * p.kernelHeight * IG), termAt W x p IG OG ox oy om s k =
      convAt W x p IG OG ox oy om s := by
  rw [show p.kernelWidth * p.kernelHeight * IG = IG * p.kernelHeight * p.kernelWidth by ring, sum_range_mul, sum_range_mul]
  unfold convAt
  refine Finset.sum_congr rfl fun im him => Finset.sum_congr rfl fun ky hky =>
    Finset.sum_congr rfl fun kx hkx => ?_
  simp only [Finset.mem_range] at him hky hkx
  have hkw : 0 < p.kernelWidth := by omega
  have e1 : ((im * p.kernelHeight + ky) * p.kernelWidth + kx) % p.kernelWidth = kx := by
    rw [Nat.add_comm, Nat.add_mul_mod_self_right, Nat.mod_eq_of_lt hkx]
  have e2 : ((im * p.kernelHeight + ky) * p.kernelWidth + kx) / p.kernelWidth = im * p.kernelHeight + ky := by
    rw [Nat.add_comm, Nat.add_mul_div_right _ _ hkw, Nat.div_eq_of_lt hkx, Nat.zero_add]
  have e3 : (im * p.kernelHeight + ky) % p.kernelHeight = ky := by
    rw [Nat.add_comm, Nat.add_mul_mod_self_right, Nat.mod_eq_of_lt hky]
  have e4 : (im * p.kernelHeight + ky) / p.kernelHeight = im := by
    rw [Nat.add_comm, Nat.add_mul_div_right _ _ (by omega), Nat.div_eq_of_lt hky, Nat.zero_add]
  unfold termAt
  rw [e1, e2, e3, ← Nat.div_div_eq_div_mul, e2, e4]

theorem forward_spec (h : l.Connected) (testing : Bool)
    (hp : testing = true ∨ l.dropout = 0) :
    ∃ l', l.feedForward testing = .done l' ∧
      (∃ a b c, l' = { l with im2colFf := a, smsFf := b, output := c }) ∧ l'.Connected ∧
      im2col l.shape l.input l.im2colFf = .done l'.im2colFf ∧
      (∀ ox oy s tm, ox < l.outputWidth → oy < l.outputHeight → s < l.input.samples →
        tm < l.kernelSize → l'.im2colFf.val ox oy s tm =
          padded l.input (l.shape.ix tm ox) (l.shape.iy tm oy) (l.shape.imap tm) s) ∧
      ∀ ox oy om s, l.output.InRange ox oy om s →
        l'.output.get ox oy om s = some ((if testing then 1 - l.dropout else 1) *
          (l.bias.val om 0 0 0 + convAt l.weights l.input l.params (l.inputMaps / l.params.group)
            (l.params.outputMaps / l.params.group) ox oy om s)) := by
  obtain ⟨l', h1, h2, h3, h4, h5, h6⟩ := forward_fold_spec h testing hp
  refine ⟨l', h1, h2, h3, h4, h5, ?_⟩
  intro ox oy om s hin
  rw [h6 ox oy om s hin, gemmValue_eq, sumTo_eq, sum_termAt]
  congr 1
  ring

omit [DecidableEq R] in
theorem sum_positions (f : Nat → R) :
    ∑ j ∈ Finset.range l.positions, f j =
      ∑ s ∈ Finset.range l.input.samples, ∑ oy ∈ Finset.range l.outputHeight,
        ∑ ox ∈ Finset.range l.outputWidth, f ((s * l.outputHeight + oy) * l.outputWidth + ox) := by
  have : l.positions = l.input.samples * l.outputHeight * l.outputWidth := by
    unfold Layer.positions; ring
  rw [this, sum_range_mul, sum_range_mul]

/-- The backward pass on flat buffers. -/
theorem backward_prefix (h : l.Connected) (bp : Bool) :
    ∃ S D dW db, l.backPropagate bp =
        ((if bp then col2im l.shape l.inputDelta D else .done l.inputDelta).bind fun dx =>
          .done { l with sms2Bp := S, bpDeltax := D, weightsDelta := dW, biasDelta := db,
                         inputDelta := dx }) ∧
      TensorMath.sms l.outputDelta l.sms2Bp = some S ∧
      S.Is l.params.outputMaps l.outputWidth l.outputHeight l.input.samples ∧
      D.Is l.kernelSize l.outputWidth l.outputHeight l.input.samples ∧
      dW.Is l.params.outputMaps l.params.kernelWidth l.params.kernelHeight
        (l.inputMaps / l.params.group) ∧
      db.Is 1 l.params.outputMaps 1 1 ∧
      (bp = true → ∀ tm j, tm < l.kernelSize → j < l.positions →
          D.data.getD (tm * l.positions + j) 0 =
            ∑ o ∈ Finset.range (l.params.outputMaps / l.params.group),
              l.weights.data.getD ((tm / (l.kernelSize / l.params.group) *
                (l.params.outputMaps / l.params.group) + o) * (l.kernelSize / l.params.group) +
                tm % (l.kernelSize / l.params.group)) 0 *
              S.data.getD ((tm / (l.kernelSize / l.params.group) *
                (l.params.outputMaps / l.params.group) + o) * l.positions + j) 0) ∧
      (∀ om k, om < l.params.outputMaps → k < l.kernelSize / l.params.group →
        dW.data.getD (om * (l.kernelSize / l.params.group) + k) 0 =
          ∑ j ∈ Finset.range l.positions, S.data.getD (om * l.positions + j) 0 *
            l.im2colFf.data.getD ((om / (l.params.outputMaps / l.params.group) *
              (l.kernelSize / l.params.group) + k) * l.positions + j) 0) ∧
      (∀ om, om < l.params.outputMaps → db.data.getD om 0 =
          ∑ j ∈ Finset.range l.positions, S.data.getD (om * l.positions + j) 0) ∧
      (∀ ox oy om s, ox < l.outputWidth → oy < l.outputHeight → om < l.params.outputMaps →
        s < l.input.samples →
        S.data.getD (om * l.positions + ((s * l.outputHeight + oy) * l.outputWidth + ox)) 0 =
          l.outputDelta.val ox oy om s) := by
  obtain ⟨OG, hOG⟩ := h.group_out
  obtain ⟨IG, hIG⟩ := h.group_in
  have hG := h.group_pos
  have hIG' : l.inputMaps / l.params.group = IG := by rw [hIG, Nat.mul_div_cancel_left _ hG]
  have hOG' : l.params.outputMaps / l.params.group = OG := by rw [hOG, Nat.mul_div_cancel_left _ hG]
  have hKK' : l.kernelSize / l.params.group = l.params.kernelWidth * l.params.kernelHeight * IG := by
    unfold Layer.kernelSize
    rw [hIG]
    exact (group_arith (OG := OG) (IG := IG) (g := 0) hG).2.2.1
  have hKS : l.kernelSize = l.params.group * (l.params.kernelWidth * l.params.kernelHeight * IG) := by
    unfold Layer.kernelSize; rw [hIG]; ring
  have hW : l.weights.Is l.params.outputMaps l.params.kernelWidth l.params.kernelHeight IG := by
    have := h.weights; rw [hIG'] at this; exact this
  have hdW : l.weightsDelta.Is l.params.outputMaps l.params.kernelWidth l.params.kernelHeight IG := by
    have := h.weightsDelta; rw [hIG'] at this; exact this
  obtain ⟨S, hS1, hS2, hS3, hS4⟩ := sms_spec (source := l.outputDelta) (target := l.sms2Bp)
    h.outputDelta.2.2.2.2 h.sms2Bp.2.2.2.2 (by rw [h.outputDelta.2.1, h.sms2Bp.2.1])
    (by rw [h.outputDelta.2.2.1, h.sms2Bp.2.2.1]) (by rw [h.outputDelta.1, h.sms2Bp.2.2.2.1])
    (by rw [h.outputDelta.2.2.2.1, h.sms2Bp.1])
  have hSI : S.Is l.params.outputMaps l.outputWidth l.outputHeight l.input.samples := by
    refine h.sms2Bp.of_sh hS2 ?_
    rw [hS3, h.sms2Bp.2.2.2.2, hS2.elements]
  have hSlen : S.data.length = l.params.outputMaps * l.positions := by
    rw [hSI.len]; unfold Layer.positions; ring
  have hSs : S.maps * S.height * S.width = l.positions := by
    rw [hSI.2.2.2.1, hSI.2.2.1, hSI.2.1]; unfold Layer.positions; ring
  obtain ⟨D, dW, hL1, hL2, hL3⟩ := group_backward (G := l.params.group) (OG := OG)
    (KK := l.params.kernelWidth * l.params.kernelHeight * IG) (L := l.positions)
    (W := l.weights) (P := l.im2colFf) (S := S) (D := l.bpDeltax) (dW := l.weightsDelta) bp
    (by rw [hW.len, hOG]; ring)
    (by rw [hW.2.2.2.1, hW.2.2.1, hW.2.1]; ring)
    (by rw [h.im2colFf.len]; unfold Layer.kernelSize Layer.positions; rw [hIG]; ring)
    (by rw [h.im2colFf.2.2.2.1, h.im2colFf.2.2.1, h.im2colFf.2.1]; unfold Layer.positions; ring)
    (by rw [hSlen, hOG]) hSs
    (by rw [h.bpDeltax.len]; unfold Layer.kernelSize Layer.positions; rw [hIG]; ring)
    (by rw [h.bpDeltax.2.2.2.1, h.bpDeltax.2.2.1, h.bpDeltax.2.1]; unfold Layer.positions; ring)
    (by rw [hdW.len, hOG]; ring)
    (by rw [hdW.2.2.2.1, hdW.2.2.1, hdW.2.1]; ring)
  have hDI : D.Is l.kernelSize l.outputWidth l.outputHeight l.input.samples := by
    cases bp with
    | false => rw [if_neg (by simp)] at hL2; rw [hL2]; exact h.bpDeltax
    | true => rw [if_pos rfl] at hL2; exact h.bpDeltax.of_sh hL2.1 hL2.2.1
  obtain ⟨db, hb1, hb2, hb3, hb4, _⟩ := gemv_spec (tA := false) (M := l.params.outputMaps)
    (N := l.positions) (alpha := 1) (beta := 0) (A := S) (X := l.ones) (Y := l.biasDelta)
    (smA := 0) (ldA := l.positions) (smX := 0) (incX := 1) (smY := 0) (incY := 1)
    (by
      intro i k hi hk
      rw [offset_sample, hSlen]
      simp only [Bool.false_eq_true, if_false]
      have := radix_lt hi hk
      omega)
    (by intro k hk; rw [offset_sample, h.ones.len]; omega)
    (by intro i hi; rw [offset_sample, h.biasDelta.len]; omega) Nat.one_pos
  refine ⟨S, D, dW, db, ?_, hS1, hSI, hDI, h.weightsDelta.of_sh hL3.1 hL3.2.1,
    h.biasDelta.of_sh hb2 hb3, ?_, ?_, ?_, ?_⟩
  · unfold Layer.backPropagate
    simp only [hS1, Outcome.ofOption_some, Outcome.bind_done]
    have hf : (fun g (s : Tensor R × Tensor R) =>
        (if bp = true then gemm true true false (l.kernelSize / l.params.group) l.positions
          (l.params.outputMaps / l.params.group) 1 l.weights
          (g * l.params.outputMaps / l.params.group) (l.kernelSize / l.params.group) S
          (g * l.params.outputMaps / l.params.group) l.positions 0 s.1
          (l.kernelSize * g / l.params.group) l.positions else .done s.1).bind fun deltax =>
        (gemm true false true (l.params.outputMaps / l.params.group)
          (l.kernelSize / l.params.group) l.positions 1 S
          (g * l.params.outputMaps / l.params.group) l.positions l.im2colFf
          (l.kernelSize * g / l.params.group) l.positions 0 s.2
          (g * l.params.outputMaps / l.params.group) (l.kernelSize / l.params.group)).bind
        fun dw => .done (deltax, dw)) =
      (fun g (s : Tensor R × Tensor R) =>
        (if bp = true then gemm true true false (l.params.kernelWidth * l.params.kernelHeight * IG)
          l.positions OG 1 l.weights (g * OG) (l.params.kernelWidth * l.params.kernelHeight * IG)
          S (g * OG) l.positions 0 s.1 (g * (l.params.kernelWidth * l.params.kernelHeight * IG))
          l.positions else .done s.1).bind fun deltax =>
        (gemm true false true OG (l.params.kernelWidth * l.params.kernelHeight * IG) l.positions 1 S
          (g * OG) l.positions l.im2colFf
          (g * (l.params.kernelWidth * l.params.kernelHeight * IG)) l.positions 0 s.2 (g * OG)
          (l.params.kernelWidth * l.params.kernelHeight * IG)).bind fun dw =>
        .done (deltax, dw)) := by
      funext g s
      unfold Layer.kernelSize
      rw [hIG, hOG]
      obtain ⟨a1, a2, a3, a4⟩ := group_arith (OG := OG) (IG := IG)
        (K := l.params.kernelWidth * l.params.kernelHeight) (g := g) hG
      rw [a1, a2, a3, a4]
    rw [hf, hL1, Outcome.bind_done, hb1, Outcome.bind_done]
  · rintro rfl tm j htm hj
    rw [if_pos rfl] at hL2
    rw [hKS] at htm
    rw [hKK', hOG']
    exact getD_of_getElem? (hL2.2.2 tm j htm hj)
  · intro om k hom hk
    rw [hKK'] at hk
    rw [hKK', hOG']
    rw [hOG] at hom
    exact getD_of_getElem? (hL3.2.2 om k hom hk)
  · intro om hom
    have := hb4 om hom
    rw [offset_sample, Nat.zero_mul, Nat.zero_add, Nat.mul_one] at this
    rw [getD_of_getElem? this, zero_mul, zero_add, one_mul]
    refine Finset.sum_congr rfl fun j hj => ?_
    simp only [Bool.false_eq_true, if_false]
    have hj' := Finset.mem_range.1 hj
    have ho : l.ones.data.getD (l.ones.offset 0 0 0 0 + j * 1) 0 = 1 := by
      rw [offset_sample, List.getD_eq_getElem?_getD]
      have hlt : 0 * (l.ones.maps * l.ones.height * l.ones.width) + j * 1 < l.ones.data.length := by
        rw [h.ones.len]; omega
      rw [List.getElem?_eq_getElem hlt, Option.getD_some]
      exact h.ones_one _ (List.getElem_mem hlt)
    rw [ho, offset_sample, Nat.zero_mul, Nat.zero_add]
    ring
  · intro ox oy om s i1 i2 i3 i4
    have := hS4 ox oy s om ⟨by rw [h.sms2Bp.2.1]; exact i1, by rw [h.sms2Bp.2.2.1]; exact i2,
      by rw [h.sms2Bp.2.2.2.1]; exact i4, by rw [h.sms2Bp.1]; exact i3⟩
    have hd := get_eq_val h.outputDelta.2.2.2.2 (x := ox) (y := oy) (m := om) (s := s)
      ⟨by rw [h.outputDelta.2.1]; exact i1, by rw [h.outputDelta.2.2.1]; exact i2,
        by rw [h.outputDelta.2.2.2.1]; exact i3, by rw [h.outputDelta.1]; exact i4⟩
    rw [hd] at this
    have hv := val_of_get this
    rw [← hv]
    unfold val
    rw [offset_eq, hSI.2.1, hSI.2.2.1, hSI.2.2.2.1]
    congr 1
    unfold Layer.positions
    ring

theorem backward_spec (h : l.Connected) (bp : Bool)
    (hcol : bp = true → ∀ y : Tensor R,
      y.Is l.kernelSize l.outputWidth l.outputHeight l.input.samples →
      ∃ q, col2im l.shape l.inputDelta y = .done q ∧
        q.Is l.input.samples l.inputWidth l.inputHeight l.inputMaps) :
    ∃ l' S, l.backPropagate bp = .done l' ∧ TensorMath.sms l.outputDelta l.sms2Bp = some S ∧
      l'.Connected ∧
      (∃ a b c d e, l' = { l with sms2Bp := a, bpDeltax := b, weightsDelta := c, biasDelta := d,
                                  inputDelta := e }) ∧
      (if bp then (∀ tm j, tm < l.kernelSize → j < l.positions →
          l'.bpDeltax.data.getD (tm * l.positions + j) 0 =
            ∑ o ∈ Finset.range (l.params.outputMaps / l.params.group),
              l.weights.data.getD ((tm / (l.kernelSize / l.params.group) *
                (l.params.outputMaps / l.params.group) + o) * (l.kernelSize / l.params.group) +
                tm % (l.kernelSize / l.params.group)) 0 *
              S.data.getD ((tm / (l.kernelSize / l.params.group) *
                (l.params.outputMaps / l.params.group) + o) * l.positions + j) 0) ∧
          col2im l.shape l.inputDelta l'.bpDeltax = .done l'.inputDelta
        else l'.inputDelta = l.inputDelta) ∧
      (∀ om k, om < l.params.outputMaps → k < l.kernelSize / l.params.group →
        l'.weightsDelta.data.getD (om * (l.kernelSize / l.params.group) + k) 0 =
          ∑ j ∈ Finset.range l.positions, S.data.getD (om * l.positions + j) 0 *
            l.im2colFf.data.getD ((om / (l.params.outputMaps / l.params.group) *
              (l.kernelSize / l.params.group) + k) * l.positions + j) 0) ∧
      (∀ om, om < l.params.outputMaps → l'.biasDelta.data.getD om 0 =
          ∑ j ∈ Finset.range l.positions, S.data.getD (om * l.positions + j) 0) ∧
      (∀ ox oy om s, ox < l.outputWidth → oy < l.outputHeight → om < l.params.outputMaps →
        s < l.input.samples →
        S.data.getD (om * l.positions + ((s * l.outputHeight + oy) * l.outputWidth + ox)) 0 =
          l.outputDelta.val ox oy om s) := by
  obtain ⟨S, D, dW, db, h1, h2, h3, h4, h5, h6, h7, h8, h9, h10⟩ := backward_prefix h bp
  have hdx : ∃ dx, (if bp then col2im l.shape l.inputDelta D else .done l.inputDelta) = .done dx ∧
      dx.Is l.input.samples l.inputWidth l.inputHeight l.inputMaps := by
    cases bp with
    | false => exact ⟨l.inputDelta, rfl, h.inputDelta⟩
    | true => exact hcol rfl D h4
  obtain ⟨dx, hdx1, hdx2⟩ := hdx
  refine ⟨{ l with sms2Bp := S, bpDeltax := D, weightsDelta := dW, biasDelta := db,
                   inputDelta := dx }, S, ?_, h2, ?_, ⟨_, _, _, _, _, rfl⟩, ?_, h8, h9, h10⟩
  · rw [h1, hdx1, Outcome.bind_done]
  · exact { h with
      sms2Bp := h3, bpDeltax := h4, weightsDelta := h5, biasDelta := h6, inputDelta := hdx2 }
  · cases bp with
    | false =>
      rw [if_neg (by simp)] at hdx1 ⊢
      injection hdx1 with e
      exact e.symm
    | true =>
      rw [if_pos rfl] at hdx1 ⊢
      exact ⟨h7 rfl, hdx1⟩

/-- Scalar product of the output of the forward pass with a delta, on flat buffers. -/
theorem forward_dot (h : l.Connected) (hdrop : l.dropout = 0) :
    ∃ l1, l.feedForward false = .done l1 ∧ l1.Connected ∧
      (∃ a b c, l1 = { l with im2colFf := a, smsFf := b, output := c }) ∧
      im2col l.shape l.input l.im2colFf = .done l1.im2colFf ∧
      ∀ (d : Tensor R) (S : Nat → R),
        (∀ ox oy om s, ox < l.outputWidth → oy < l.outputHeight → om < l.params.outputMaps →
          s < l.input.samples →
          S (om * l.positions + ((s * l.outputHeight + oy) * l.outputWidth + ox)) =
            d.val ox oy om s) →
        dot l1.output d = ∑ om ∈ Finset.range l.params.outputMaps,
          ∑ j ∈ Finset.range l.positions,
            (l.bias.data.getD om 0 + ∑ k ∈ Finset.range (l.kernelSize / l.params.group),
              l.weights.data.getD (om * (l.kernelSize / l.params.group) + k) 0 *
              l1.im2colFf.data.getD ((om / (l.params.outputMaps / l.params.group) *
                (l.kernelSize / l.params.group) + k) * l.positions + j) 0) *
            S (om * l.positions + j) := by
  obtain ⟨l1, h1, h2, h3, h4, h5, h6⟩ := forward_spec h false (Or.inr hdrop)
  refine ⟨l1, h1, h3, h2, h4, ?_⟩
  intro d S hS
  obtain ⟨a, b, c, rfl⟩ := h2
  obtain ⟨OG, hOG⟩ := h.group_out
  obtain ⟨IG, hIG⟩ := h.group_in
  have hG := h.group_pos
  have hIG' : l.inputMaps / l.params.group = IG := by rw [hIG, Nat.mul_div_cancel_left _ hG]
  have hOG' : l.params.outputMaps / l.params.group = OG := by rw [hOG, Nat.mul_div_cancel_left _ hG]
  have hKK' : l.kernelSize / l.params.group = l.params.kernelWidth * l.params.kernelHeight * IG := by
    unfold Layer.kernelSize
    rw [hIG]
    exact (group_arith (OG := OG) (IG := IG) (g := 0) hG).2.2.1
  have hW : l.weights.Is l.params.outputMaps l.params.kernelWidth l.params.kernelHeight IG := by
    have := h.weights; rw [hIG'] at this; exact this
  have hc := h3.output
  have ha := h3.im2colFf
  simp only at hc ha h5 h6 ⊢
  unfold dot
  rw [hc.1, hc.2.1, hc.2.2.1, hc.2.2.2.1, Finset.sum_comm]
  refine Finset.sum_congr rfl fun om hom => ?_
  rw [sum_positions]
  refine Finset.sum_congr rfl fun s hs => Finset.sum_congr rfl fun oy hoy =>
    Finset.sum_congr rfl fun ox hox => ?_
  simp only [Finset.mem_range] at hom hs hoy hox
  rw [hS ox oy om s hox hoy hom hs]
  have hv := h6 ox oy om s ⟨by rw [h.output.2.1]; exact hox, by rw [h.output.2.2.1]; exact hoy,
    by rw [h.output.2.2.2.1]; exact hom, by rw [h.output.1]; exact hs⟩
  rw [val_of_get hv]
  simp only [Bool.false_eq_true, if_false, one_mul]
  have hg : om / OG < l.params.group := by
    rw [hOG] at hom
    have : 0 < OG := by rcases Nat.eq_zero_or_pos OG with h0 | h0
                        · rw [h0] at hom; simp at hom
                        · exact h0
    exact (Nat.div_lt_iff_lt_mul this).2 hom
  rw [hKK', hOG', row_col_sum hIG ha h5 hW hox hoy hs hg, hIG']
  congr 2
  unfold val
  rw [offset_eq]
  congr 1
  ring

omit [DecidableEq R] in
/-- The sum over all weights as a sum over rows. -/
theorem dot_weights (h : l.Connected) {W dW : Tensor R}
    (hW : W.Is l.params.outputMaps l.params.kernelWidth l.params.kernelHeight
      (l.inputMaps / l.params.group))
    (hdW : dW.Is l.params.outputMaps l.params.kernelWidth l.params.kernelHeight
      (l.inputMaps / l.params.group)) :
    dot W dW = ∑ om ∈ Finset.range l.params.outputMaps,
      ∑ k ∈ Finset.range (l.kernelSize / l.params.group),
        W.data.getD (om * (l.kernelSize / l.params.group) + k) 0 *
        dW.data.getD (om * (l.kernelSize / l.params.group) + k) 0 := by
  obtain ⟨IG, hIG⟩ := h.group_in
  have hG := h.group_pos
  have hIG' : l.inputMaps / l.params.group = IG := by rw [hIG, Nat.mul_div_cancel_left _ hG]
  have hKK' : l.kernelSize / l.params.group = l.params.kernelWidth * l.params.kernelHeight * IG := by
    unfold Layer.kernelSize
    rw [hIG]
    exact (group_arith (OG := 0) (IG := IG) (g := 0) hG).2.2.1
  rw [hIG'] at hW hdW
  have hsh : Sh W dW := by
    obtain ⟨a1, a2, a3, a4, _⟩ := hW
    obtain ⟨b1, b2, b3, b4, _⟩ := hdW
    exact ⟨by omega, by omega, by omega, by omega⟩
  rw [dot_eq hsh, elements_eq, hW.1, hW.2.1, hW.2.2.1, hW.2.2.2.1, hKK']
  have e : l.params.outputMaps * IG * l.params.kernelHeight * l.params.kernelWidth =
      l.params.outputMaps * (l.params.kernelWidth * l.params.kernelHeight * IG) := by ring
  rw [e, sum_range_mul]

end CN24.Convolution
