import Verif.Proof.Adjoint
import Verif.Proof.Gemm
import Mathlib.Data.Matrix.Mul
import Mathlib.Algebra.BigOperators.Fin

/-
Property theorems about the matrix and image kernels: C32 (IM2COL), C33 (COL2IM), C34 (GEMM and
GEMV), C37 (SMS), C38 (DOWN and UP).
-/

namespace CN24.Props
open CN24 CN24.Tensor CN24.TensorMath

variable {R : Type _} [CommRing R]

/-! ## C32 -/

/-- C32: after IM2COL the column tensor holds, for every kernel element `(kx, ky)` of every map,
every sample and every output position, the source pixel under that kernel element, or zero if
that pixel lies in the padding. -/
theorem C32_im2col (c : ColShape) (source target : Tensor R)
    (hstride : 0 < c.strideWidth ∧ 0 < c.strideHeight)
    (hs : c.FitsSource source) (ht : c.FitsTarget target) :
    ∃ u, im2col c source target = .done u ∧ Sh target u ∧ u.WF ∧
      ∀ kx ky map ox oy sample, kx < c.kernelWidth → ky < c.kernelHeight → map < c.maps →
        ox < u.width → oy < u.height → sample < c.samples →
        u.get ox oy sample ((map * c.kernelHeight + ky) * c.kernelWidth + kx) =
          some (let px : Int := (ox : Int) * c.strideWidth + kx - c.padWidth
                let py : Int := (oy : Int) * c.strideHeight + ky - c.padHeight
                if 0 ≤ px ∧ px < c.sourceWidth ∧ 0 ≤ py ∧ py < c.sourceHeight then
                  source.val px.toNat py.toNat map sample
                else 0) := by
  obtain ⟨u, h1, h2, h3, h4⟩ := im2col_spec hstride.1 hstride.2 hs ht
  refine ⟨u, h1, h2, h3, ?_⟩
  intro kx ky map ox oy sample hkx hky hmap hox hoy hsample
  have htm : (map * c.kernelHeight + ky) * c.kernelWidth + kx < c.targetMaps := by
    unfold ColShape.targetMaps
    have := radix_lt (radix_lt hmap hky) hkx
    have e : c.maps * c.kernelHeight * c.kernelWidth = c.kernelWidth * c.kernelHeight * c.maps := by
      ring
    omega
  rw [h4 ox oy sample _ (by rw [h2.2.1]; exact hox) (by rw [h2.2.2.1]; exact hoy) hsample htm]
  congr 1
  have hkw : 0 < c.kernelWidth := by omega
  have hkh : 0 < c.kernelHeight := by omega
  have e1 : ((map * c.kernelHeight + ky) * c.kernelWidth + kx) % c.kernelWidth = kx := by
    rw [Nat.add_comm, Nat.add_mul_mod_self_right, Nat.mod_eq_of_lt hkx]
  have e2 : ((map * c.kernelHeight + ky) * c.kernelWidth + kx) / c.kernelWidth =
      map * c.kernelHeight + ky := by
    rw [Nat.add_comm, Nat.add_mul_div_right _ _ hkw, Nat.div_eq_of_lt hkx, Nat.zero_add]
  have e3 : (map * c.kernelHeight + ky) % c.kernelHeight = ky := by
    rw [Nat.add_comm, Nat.add_mul_mod_self_right, Nat.mod_eq_of_lt hky]
  have e4 : (map * c.kernelHeight + ky) / c.kernelHeight = map := by
    rw [Nat.add_comm, Nat.add_mul_div_right _ _ hkh, Nat.div_eq_of_lt hky, Nat.zero_add]
  have ex : c.ix ((map * c.kernelHeight + ky) * c.kernelWidth + kx) ox =
      (ox : Int) * c.strideWidth + kx - c.padWidth := by
    unfold ColShape.ix; rw [e1]; ring
  have ey : c.iy ((map * c.kernelHeight + ky) * c.kernelWidth + kx) oy =
      (oy : Int) * c.strideHeight + ky - c.padHeight := by
    unfold ColShape.iy; rw [e2, e3]; ring
  have em : c.imap ((map * c.kernelHeight + ky) * c.kernelWidth + kx) = map := by
    unfold ColShape.imap; rw [← Nat.div_div_eq_div_mul, e2, e4]
  rw [ex, ey, em]
  unfold padded
  rw [hs.2.1, hs.2.2.1]
  simp only [and_assoc]

/-- C32: a target of another total size is refused. -/
theorem C32_wrong_size_refused (c : ColShape) (source target : Tensor R)
    (hstride : 0 < c.strideWidth ∧ 0 < c.strideHeight)
    (h : c.samples * c.targetWidth * c.targetHeight * c.targetMaps ≠
      ((target.samples * target.width * target.height * target.maps : Nat) : Int)) :
    im2col c source target = .fatal := by
  unfold im2col
  rw [if_neg (by omega), if_pos (by unfold ColShape.targetSize; exact h)]

/-- A 3x2 image, kernel 2x2, stride 1, padding 1x0: hypotheses are met. -/
def exampleShape : ColShape := ⟨3, 2, 1, 1, 2, 2, 1, 1, 1, 0⟩
example : exampleShape.FitsSource (⟨1, 3, 2, 1, [1, 2, 3, 4, 5, 6]⟩ : Tensor Int) ∧
    exampleShape.FitsTarget (⟨4, 4, 1, 1, List.replicate 16 7⟩ : Tensor Int) ∧
    im2col exampleShape (⟨1, 3, 2, 1, [1, 2, 3, 4, 5, 6]⟩ : Tensor Int)
      ⟨4, 4, 1, 1, List.replicate 16 7⟩ =
      .done ⟨4, 4, 1, 1, [0, 1, 2, 3, 1, 2, 3, 0, 0, 4, 5, 6, 4, 5, 6, 0]⟩ := by
  unfold ColShape.FitsSource ColShape.FitsTarget
  decide +kernel

/-! ## C33 -/

/-- C33, for geometries in which the column test of the code (`iy < width`) agrees with the
intended one (`ix < width`) at all positions visited: COL2IM is the adjoint of IM2COL.  Missing
for the full property: all other geometries, for which it is false or undefined, see
`C33_same_convolution_undefined` and `C33_gradient_misplaced`. -/
theorem C33_adjoint_partial (c : ColShape) (x y g0 t0 : Tensor R)
    (hstride : 0 < c.strideWidth ∧ 0 < c.strideHeight)
    (hx : c.FitsSource x) (hg : c.FitsSource g0) (hy : c.FitsTarget y) (ht : c.FitsTarget t0)
    (hagree : ∀ tm ox oy, tm < c.targetMaps → ox < y.width → oy < y.height →
      0 ≤ c.iy tm oy → c.iy tm oy < c.sourceHeight → 0 ≤ c.ix tm ox →
      (c.iy tm oy < c.sourceWidth ↔ c.ix tm ox < c.sourceWidth)) :
    ∃ p q, im2col c x t0 = .done p ∧ col2im c g0 y = .done q ∧ Sh y p ∧ Sh x q ∧
      dot p y = dot x q := by
  exact col2im_adjoint hstride hx hg hy ht hagree

/-- C33 holds in particular without horizontal padding for images at least as wide as high. -/
theorem C33_adjoint_unpadded_partial (c : ColShape) (x y g0 t0 : Tensor R)
    (hstride : 0 < c.strideWidth ∧ 0 < c.strideHeight)
    (hx : c.FitsSource x) (hg : c.FitsSource g0) (hy : c.FitsTarget y) (ht : c.FitsTarget t0)
    (hpad : c.padWidth = 0) (hfit : c.kernelWidth ≤ c.sourceWidth)
    (hsq : c.sourceHeight ≤ c.sourceWidth) :
    ∃ p q, im2col c x t0 = .done p ∧ col2im c g0 y = .done q ∧ Sh y p ∧ Sh x q ∧
      dot p y = dot x q := by
  refine C33_adjoint_partial c x y g0 t0 hstride hx hg hy ht ?_
  intro tm ox oy htm hox hoy h1 h2 h3
  have hkw : 0 < c.kernelWidth := by
    rcases Nat.eq_zero_or_pos c.kernelWidth with h | h
    · unfold ColShape.targetMaps at htm; rw [h] at htm; simp at htm
    · exact h
  have hmod := Nat.mod_lt tm hkw
  have hw := hy.2.2.2.1
  unfold ColShape.targetWidth outDim at hw
  have e : (2 * (c.padWidth : Int) + c.sourceWidth - c.kernelWidth) =
      ((c.sourceWidth - c.kernelWidth : Nat) : Int) := by omega
  rw [e, Int.tdiv_eq_ediv_of_nonneg (by omega), ← Int.natCast_ediv] at hw
  have hox2 : ox ≤ (c.sourceWidth - c.kernelWidth) / c.strideWidth := by omega
  have hmul : ox * c.strideWidth ≤ c.sourceWidth - c.kernelWidth :=
    (Nat.le_div_iff_mul_le hstride.1).1 hox2
  have hix : c.ix tm ox < c.sourceWidth := by
    unfold ColShape.ix
    have : ((ox * c.strideWidth : Nat) : Int) = (ox : Int) * c.strideWidth := by push_cast; rfl
    omega
  exact ⟨fun _ => hix, fun _ => by omega⟩

/-- The full property fails: for the usual 3x3 convolution with padding 1 on a square image the
backward pass writes outside the gradient tensor. -/
theorem C33_same_convolution_undefined (n maps samples : Nat) (hn : 0 < n) (hm : 0 < maps)
    (hsm : 0 < samples) (g y : Tensor R)
    (hg : (ColShape.mk n n maps samples 3 3 1 1 1 1).FitsSource g)
    (hy : (ColShape.mk n n maps samples 3 3 1 1 1 1).FitsTarget y) :
    col2im (ColShape.mk n n maps samples 3 3 1 1 1 1) g y = .undefined := by
  generalize hc : ColShape.mk n n maps samples 3 3 1 1 1 1 = c at hg hy
  have hw : y.width = n := by
    have := hy.2.2.2.1
    subst hc
    simp only [ColShape.targetWidth, outDim] at this
    have e : (2 * ((1 : Nat) : Int) + n - ((3 : Nat) : Int)).tdiv ((1 : Nat) : Int) + 1 = n := by
      rw [Int.ofNat_one, Int.tdiv_one]; omega
    omega
  have hh : y.height = n := by
    have := hy.2.2.2.2
    subst hc
    simp only [ColShape.targetHeight, outDim] at this
    have e : (2 * ((1 : Nat) : Int) + n - ((3 : Nat) : Int)).tdiv ((1 : Nat) : Int) + 1 = n := by
      rw [Int.ofNat_one, Int.tdiv_one]; omega
    omega
  rw [col2im_eq (by subst hc; simp) (by subst hc; simp) hg hy, mods_none]
  · rfl
  -- the kernel element (2, 1) of the last map at the last output position of the last sample
  have hix : c.ix ((maps - 1) * 9 + 5) (n - 1) = n := by
    subst hc
    simp only [ColShape.ix]
    have : ((maps - 1) * 9 + 5) % 3 = 2 := by omega
    rw [this]; omega
  have hiy : c.iy ((maps - 1) * 9 + 5) (n - 1) = n - 1 := by
    subst hc
    simp only [ColShape.iy]
    have : ((maps - 1) * 9 + 5) / 3 % 3 = 1 := by omega
    rw [this]; omega
  have him : c.imap ((maps - 1) * 9 + 5) = maps - 1 := by
    subst hc
    simp only [ColShape.imap]
    omega
  refine ⟨(g.offset n (n - 1) (maps - 1) (samples - 1),
    (· + y.val (n - 1) (n - 1) (samples - 1) ((maps - 1) * 9 + 5))), ?_, ?_⟩
  · unfold adds
    rw [List.mem_map]
    refine ⟨(g.offset n (n - 1) (maps - 1) (samples - 1),
      y.val (n - 1) (n - 1) (samples - 1) ((maps - 1) * 9 + 5)), ?_, rfl⟩
    unfold col2imAdds
    simp only [List.mem_flatMap, List.mem_range]
    refine ⟨samples - 1, by subst hc; simp only; omega, (maps - 1) * 9 + 5,
      by subst hc; simp only [ColShape.targetMaps]; omega, n - 1, by omega, ?_⟩
    rw [hiy, if_pos (by subst hc; simp only; omega)]
    simp only [List.mem_flatMap, List.mem_range]
    refine ⟨n - 1, by omega, ?_⟩
    rw [hix, if_pos (by subst hc; simp only; omega), him]
    simp only [List.mem_singleton, Prod.mk.injEq, and_true]
    congr 1 <;> omega
  · simp only [List.length_replicate]
    obtain ⟨h1, h2, h3, h4, h5⟩ := hg
    rw [h1, offset_eq, elements_eq]
    subst hc
    simp only at h2 h3 h4 h5
    rw [h2, h3, h4, h5]
    obtain ⟨a, rfl⟩ : ∃ a, n = a + 1 := ⟨n - 1, by omega⟩
    obtain ⟨b, rfl⟩ : ∃ b, maps = b + 1 := ⟨maps - 1, by omega⟩
    obtain ⟨d, rfl⟩ : ∃ d, samples = d + 1 := ⟨samples - 1, by omega⟩
    simp only [Nat.add_sub_cancel]
    apply le_of_eq
    ring

/-- The full property fails also where the code is defined: on an image one pixel wide and three
high, with a 1x1 kernel and horizontal padding 1, a padding column is added to the wrong row. -/
theorem C33_gradient_misplaced :
    ∃ (c : ColShape) (x y g0 t0 p q : Tensor Int), c.FitsSource x ∧ c.FitsSource g0 ∧
      c.FitsTarget y ∧ c.FitsTarget t0 ∧ 0 < c.strideWidth ∧ 0 < c.strideHeight ∧
      im2col c x t0 = .done p ∧ col2im c g0 y = .done q ∧ dot p y = 0 ∧ dot x q = 1 := by
  refine ⟨⟨1, 3, 1, 1, 1, 1, 1, 1, 1, 0⟩, ⟨1, 1, 3, 1, [0, 1, 0]⟩,
    ⟨1, 3, 3, 1, [0, 0, 1, 0, 0, 0, 0, 0, 0]⟩, ⟨1, 1, 3, 1, [0, 0, 0]⟩,
    ⟨1, 3, 3, 1, [0, 0, 0, 0, 0, 0, 0, 0, 0]⟩,
    ⟨1, 3, 3, 1, [0, 0, 0, 0, 1, 0, 0, 0, 0]⟩, ⟨1, 1, 3, 1, [0, 1, 0]⟩, ?_⟩
  unfold ColShape.FitsSource ColShape.FitsTarget
  decide +kernel

/-- Non-vacuity of `C33_adjoint_unpadded_partial`: a 3x2 image with kernel 2x1. -/
example : (ColShape.mk 3 2 1 1 2 1 1 1 0 0).FitsSource (⟨1, 3, 2, 1, [1, 2, 3, 4, 5, 6]⟩ : Tensor Int) ∧
    (ColShape.mk 3 2 1 1 2 1 1 1 0 0).FitsTarget (⟨2, 2, 2, 1, [1, 2, 3, 4, 5, 6, 7, 8]⟩ : Tensor Int) ∧
    col2im (ColShape.mk 3 2 1 1 2 1 1 1 0 0) (⟨1, 3, 2, 1, [1, 2, 3, 4, 5, 6]⟩ : Tensor Int)
      ⟨2, 2, 2, 1, [1, 2, 3, 4, 5, 6, 7, 8]⟩ = .done ⟨1, 3, 2, 1, [1, 7, 6, 3, 11, 8]⟩ := by
  unfold ColShape.FitsSource ColShape.FitsTarget
  decide +kernel

/-! ## C34 -/

/-- The `rows × cols` matrix stored row by row with leading dimension `ld` from element `start`
of the tensor. -/
def matrixOf (t : Tensor R) (start ld rows cols : Nat) : Matrix (Fin rows) (Fin cols) R :=
  fun i j => t.data.getD (start + (i.1 * ld + j.1)) 0

/-- All entries of that matrix exist. -/
def HasMatrix (t : Tensor R) (start ld rows cols : Nat) : Prop :=
  ∀ i j, i < rows → j < cols → start + (i * ld + j) < t.data.length

/-- First element of a sample. -/
def sampleStart (t : Tensor R) (s : Nat) : Nat := s * (t.maps * t.width * t.height)

omit [CommRing R] in
theorem sampleStart_eq (t : Tensor R) (s : Nat) : t.offset 0 0 0 s = sampleStart t s := by
  unfold offset sampleStart; ring

/-- C34: the reference GEMM stores `alpha * op(A) * op(B) + beta * C` in the addressed matrix of
`C`, for all transposition flags, leading dimensions and sample offsets for which the three
matrices exist, and leaves all other elements of `C` alone. -/
theorem C34_gemm [DecidableEq R] (tA tB : Bool) (M N K : Nat) (alpha beta : R) (A B C : Tensor R)
    (smA ldA smB ldB smC ldC : Nat)
    (hA : if tA then HasMatrix A (sampleStart A smA) ldA K M else HasMatrix A (sampleStart A smA) ldA M K)
    (hB : if tB then HasMatrix B (sampleStart B smB) ldB N K else HasMatrix B (sampleStart B smB) ldB K N)
    (hC : HasMatrix C (sampleStart C smC) ldC M N) (hld : N ≤ ldC) :
    ∃ C', gemm true tA tB M N K alpha A smA ldA B smB ldB beta C smC ldC = .done C' ∧
      Sh C C' ∧ C'.data.length = C.data.length ∧
      matrixOf C' (sampleStart C smC) ldC M N =
        alpha • ((if tA then (matrixOf A (sampleStart A smA) ldA K M).transpose
                  else matrixOf A (sampleStart A smA) ldA M K) *
                 (if tB then (matrixOf B (sampleStart B smB) ldB N K).transpose
                  else matrixOf B (sampleStart B smB) ldB K N)) +
        beta • matrixOf C (sampleStart C smC) ldC M N ∧
      ∀ p, (∀ i j, i < M → j < N → p ≠ sampleStart C smC + (i * ldC + j)) →
        C'.data[p]? = C.data[p]? := by
  obtain ⟨C', h1, h2, h3, h4, h5⟩ := gemm_spec (tA := tA) (tB := tB) (M := M) (N := N) (K := K)
    (alpha := alpha) (beta := beta) (A := A) (B := B) (C := C) (smA := smA) (ldA := ldA) (smB := smB)
    (ldB := ldB) (smC := smC) (ldC := ldC)
    (by
      intro i k hi hk
      rw [sampleStart_eq]
      cases tA
      · exact hA i k hi hk
      · exact hA k i hk hi)
    (by
      intro k j hk hj
      rw [sampleStart_eq]
      cases tB
      · exact hB k j hk hj
      · exact hB j k hj hk)
    (by
      intro i j hi hj
      rw [sampleStart_eq, Nat.mul_comm]
      exact hC i j hi hj) hld
  refine ⟨C', h1, h2, h3, ?_, ?_⟩
  · funext i j
    have := h4 i.1 j.1 i.2 j.2
    simp only [sampleStart_eq] at this
    simp only [matrixOf, Matrix.add_apply, Matrix.smul_apply, Matrix.mul_apply, smul_eq_mul]
    rw [List.getD_eq_getElem?_getD, Nat.mul_comm i.1 ldC, this, Option.getD_some, add_comm]
    congr 2
    rw [Finset.sum_range]
    refine Finset.sum_congr rfl fun k _ => ?_
    cases tA <;> cases tB <;> simp [matrixOf, Matrix.transpose_apply]
  · intro p hp
    refine h5 p ?_
    intro i j hi hj
    rw [sampleStart_eq, Nat.mul_comm]
    exact hp i j hi hj

/-- C34: with `beta = 0` the previous contents of the addressed matrix do not matter (not even
as a factor of zero, the code does not read them). -/
theorem C34_gemm_ignores_target [DecidableEq R] (tA tB : Bool) (M N K : Nat) (alpha : R)
    (A B C D : Tensor R) (smA ldA smB ldB smC ldC : Nat)
    (hsh : Sh C D) (hlen : C.data.length = D.data.length)
    (hA : if tA then HasMatrix A (sampleStart A smA) ldA K M else HasMatrix A (sampleStart A smA) ldA M K)
    (hB : if tB then HasMatrix B (sampleStart B smB) ldB N K else HasMatrix B (sampleStart B smB) ldB K N)
    (hC : HasMatrix C (sampleStart C smC) ldC M N) (hld : N ≤ ldC) :
    ∃ C' D', gemm true tA tB M N K alpha A smA ldA B smB ldB 0 C smC ldC = .done C' ∧
      gemm true tA tB M N K alpha A smA ldA B smB ldB 0 D smC ldC = .done D' ∧
      matrixOf C' (sampleStart C smC) ldC M N = matrixOf D' (sampleStart D smC) ldC M N := by
  have hst : sampleStart D smC = sampleStart C smC := by
    unfold sampleStart; rw [hsh.2.2.2, hsh.2.1, hsh.2.2.1]
  obtain ⟨C', h1, _, _, h2, _⟩ := C34_gemm tA tB M N K alpha 0 A B C smA ldA smB ldB smC ldC hA hB hC hld
  obtain ⟨D', h3, _, _, h4, _⟩ := C34_gemm tA tB M N K alpha 0 A B D smA ldA smB ldB smC ldC hA hB
    (by intro i j hi hj; rw [hst, ← hlen]; exact hC i j hi hj) hld
  exact ⟨C', D', h1, h3, by rw [h2, h4, zero_smul, zero_smul]⟩

/-- The vector with `n` entries at distance `inc` from element `start` of the tensor. -/
def vectorOf (t : Tensor R) (start inc n : Nat) : Fin n → R :=
  fun i => t.data.getD (start + i.1 * inc) 0

/-- C34: the reference GEMV stores `alpha * op(A) * x + beta * y`, where `op(A)` has `M` rows and
`N` columns. -/
theorem C34_gemv [DecidableEq R] (tA : Bool) (M N : Nat) (alpha beta : R) (A X Y : Tensor R)
    (smA ldA smX incX smY incY : Nat)
    (hA : if tA then HasMatrix A (sampleStart A smA) ldA N M else HasMatrix A (sampleStart A smA) ldA M N)
    (hX : ∀ j, j < N → sampleStart X smX + j * incX < X.data.length)
    (hY : ∀ i, i < M → sampleStart Y smY + i * incY < Y.data.length) (hinc : 0 < incY) :
    ∃ Y', gemv true tA M N alpha A smA ldA X smX incX beta Y smY incY = .done Y' ∧
      Sh Y Y' ∧ Y'.data.length = Y.data.length ∧
      vectorOf Y' (sampleStart Y smY) incY M =
        alpha • ((if tA then (matrixOf A (sampleStart A smA) ldA N M).transpose
                  else matrixOf A (sampleStart A smA) ldA M N).mulVec
                 (vectorOf X (sampleStart X smX) incX N)) +
        beta • vectorOf Y (sampleStart Y smY) incY M ∧
      ∀ p, (∀ i, i < M → p ≠ sampleStart Y smY + i * incY) → Y'.data[p]? = Y.data[p]? := by
  obtain ⟨Y', h1, h2, h3, h4, h5⟩ := gemv_spec (tA := tA) (M := M) (N := N)
    (alpha := alpha) (beta := beta) (A := A) (X := X) (Y := Y) (smA := smA) (ldA := ldA) (smX := smX)
    (incX := incX) (smY := smY) (incY := incY)
    (by
      intro i k hi hk
      rw [sampleStart_eq]
      cases tA
      · exact hA i k hi hk
      · exact hA k i hk hi)
    (by intro k hk; rw [sampleStart_eq]; exact hX k hk)
    (by intro i hi; rw [sampleStart_eq]; exact hY i hi) hinc
  refine ⟨Y', h1, h2, h3, ?_, ?_⟩
  · funext i
    have := h4 i.1 i.2
    simp only [sampleStart_eq] at this
    simp only [vectorOf, Pi.add_apply, Pi.smul_apply, Matrix.mulVec, dotProduct, smul_eq_mul]
    rw [List.getD_eq_getElem?_getD, this, Option.getD_some, add_comm]
    congr 2
    rw [Finset.sum_range]
    refine Finset.sum_congr rfl fun k _ => ?_
    cases tA <;> simp [matrixOf, Matrix.transpose_apply]
  · intro p hp
    refine h5 p ?_
    intro i hi
    rw [sampleStart_eq]
    exact hp i hi

/-- Non-vacuity: transposed `A`, the second sample of `C`, leading dimension larger than `N`. -/
example : gemm true true false 2 2 1 (2 : Int) ⟨1, 2, 1, 1, [3, 4]⟩ 0 2 ⟨1, 2, 1, 1, [5, 7]⟩ 0 2 1
    ⟨2, 3, 2, 1, [9, 9, 9, 9, 9, 9, 1, 1, 1, 1, 1, 1]⟩ 1 3 =
    .done ⟨2, 3, 2, 1, [9, 9, 9, 9, 9, 9, 31, 43, 1, 41, 57, 1]⟩ := by decide +kernel

/-! ## C37 -/

/-- C37: SMS exchanges samples and maps. -/
theorem C37_sms (source target : Tensor R) (hs : source.WF) (ht : target.WF)
    (hw : source.width = target.width) (hh : source.height = target.height)
    (h1 : source.samples = target.maps) (h2 : source.maps = target.samples) :
    ∃ u, sms source target = some u ∧ Sh target u ∧ u.WF ∧
      ∀ x y m s, x < u.width → y < u.height → m < u.maps → s < u.samples →
        u.get x y m s = source.get x y s m := by
  obtain ⟨u, g1, g2, g3, g4⟩ := sms_spec hs ht hw hh h1 h2
  exact ⟨u, g1, g2, g3, fun x y m s a b c d => g4 x y m s
    ⟨by rw [g2.2.1]; exact a, by rw [g2.2.2.1]; exact b, by rw [g2.2.2.2]; exact c,
      by rw [g2.1]; exact d⟩⟩

/-- C37: applying SMS twice restores the tensor, whatever the two targets contained. -/
theorem C37_sms_involution (t b1 b2 : Tensor R) (ht : t.WF) (hb1 : b1.WF) (hb2 : b2.WF)
    (h1 : b1.width = t.width ∧ b1.height = t.height ∧ b1.maps = t.samples ∧ b1.samples = t.maps)
    (h2 : Sh t b2) :
    ∃ u, sms t b1 = some u ∧ sms u b2 = some t := by
  obtain ⟨u, g1, g2, g3, g4⟩ := sms_spec ht hb1 h1.1.symm h1.2.1.symm h1.2.2.1.symm h1.2.2.2.symm
  obtain ⟨a1, a2, a3, a4⟩ := g2
  obtain ⟨c1, c2, c3, c4⟩ := h2
  obtain ⟨d1, d2, d3, d4⟩ := h1
  obtain ⟨v, k1, k2, k3, k4⟩ := sms_spec g3 hb2 (by omega) (by omega) (by omega) (by omega)
  refine ⟨u, g1, ?_⟩
  rw [k1]
  congr 1
  refine ext_get k3 ht ?_ ?_
  · exact k2.symm.trans (Sh.symm ⟨c1, c2, c3, c4⟩)
  · rintro x y m s ⟨e1, e2, e3, e4⟩
    obtain ⟨b1, b2, b3, b4⟩ := k2
    rw [k4 x y m s ⟨by omega, by omega, by omega, by omega⟩,
      g4 x y s m ⟨by omega, by omega, by omega, by omega⟩]

example : sms (⟨2, 1, 2, 3, [1, 2, 3, 4, 5, 6, 7, 8, 9, 10, 11, 12]⟩ : Tensor Int)
    ⟨3, 1, 2, 2, List.replicate 12 0⟩ =
    some ⟨3, 1, 2, 2, [1, 2, 7, 8, 3, 4, 9, 10, 5, 6, 11, 12]⟩ := by decide +kernel

/-! ## C38 -/

/-- C38: DOWN stores the factor times the sum over each region. -/
theorem C38_down (source target : Tensor R) (rw rh : Nat) (factor : R) (hs : source.WF)
    (ht : target.WF) (hw : source.width = rw * target.width)
    (hh : source.height = rh * target.height) (hm : source.maps = target.maps)
    (hsm : source.samples = target.samples) :
    ∃ u, down source target rw rh factor = some u ∧ Sh target u ∧ u.WF ∧
      ∀ x y m s, target.InRange x y m s →
        u.val x y m s = factor * ∑ ry ∈ Finset.range rh, ∑ rx ∈ Finset.range rw,
          source.val (x * rw + rx) (y * rh + ry) m s := by
  obtain ⟨u, h1, h2, h3, h4⟩ := down_spec (factor := factor) hs ht hw hh hm hsm
  refine ⟨u, h1, h2, h3, ?_⟩
  intro x y m s hin
  rw [val_of_get (h4 x y m s hin), mul_comm]
  simp only [Nat.mul_comm]

/-- C38: UP stores the factor times the value of the region each pixel belongs to. -/
theorem C38_up (source target : Tensor R) (rw rh : Nat) (factor : R) (hs : source.WF)
    (ht : target.WF) (hw : target.width = rw * source.width)
    (hh : target.height = rh * source.height) (hm : target.maps = source.maps)
    (hsm : target.samples = source.samples) :
    ∃ u, up source target rw rh factor = some u ∧ Sh target u ∧ u.WF ∧
      ∀ x y m s, target.InRange x y m s →
        u.val x y m s = factor * source.val (x / rw) (y / rh) m s := by
  obtain ⟨u, h1, h2, h3, h4⟩ := up_spec (factor := factor) hs ht hw hh hm hsm
  refine ⟨u, h1, h2, h3, ?_⟩
  rintro x y m s ⟨hx, hy, hm', hs'⟩
  have hrw : 0 < rw := by
    rcases Nat.eq_zero_or_pos rw with h | h
    · rw [hw, h] at hx; simp at hx
    · exact h
  have hrh : 0 < rh := by
    rcases Nat.eq_zero_or_pos rh with h | h
    · rw [hh, h] at hy; simp at hy
    · exact h
  have hx1 : x / rw < source.width := (Nat.div_lt_iff_lt_mul hrw).2 (by rw [Nat.mul_comm, ← hw]; exact hx)
  have hy1 : y / rh < source.height := (Nat.div_lt_iff_lt_mul hrh).2 (by rw [Nat.mul_comm, ← hh]; exact hy)
  have := h4 (x / rw) (y / rh) m s (x % rw) (y % rh) ⟨hx1, hy1, by omega, by omega⟩
    (Nat.mod_lt _ hrw) (Nat.mod_lt _ hrh)
  rw [Nat.div_add_mod, Nat.div_add_mod] at this
  rw [val_of_get this, mul_comm]

theorem sum_range_mul' (a b : Nat) (f : Nat → R) :
    ∑ j ∈ Finset.range (b * a), f j =
      ∑ i ∈ Finset.range a, ∑ k ∈ Finset.range b, f (i * b + k) := by
  rw [Nat.mul_comm, sum_range_mul]

/-- C38: DOWN and UP with the same factor are adjoint: `<DOWN x, y> = <x, UP y>`. -/
theorem C38_adjoint (x y bufd bufu : Tensor R) (rw rh : Nat) (factor : R) (hx : x.WF) (hy : y.WF)
    (hd : bufd.WF) (hu : bufu.WF) (hyd : Sh y bufd) (hxu : Sh x bufu)
    (hw : x.width = rw * y.width) (hh : x.height = rh * y.height) (hm : x.maps = y.maps)
    (hsm : x.samples = y.samples) :
    ∃ d u, down x bufd rw rh factor = some d ∧ up y bufu rw rh factor = some u ∧
      dot d y = dot x u := by
  obtain ⟨a1, a2, a3, a4⟩ := hyd
  obtain ⟨b1, b2, b3, b4⟩ := hxu
  obtain ⟨d, d1, d2, _, d4⟩ := C38_down x bufd rw rh factor hx hd (by rw [← a2]; exact hw)
    (by rw [← a3]; exact hh) (by omega) (by omega)
  obtain ⟨u, u1, u2, _, u4⟩ := C38_up y bufu rw rh factor hy hu (by rw [← b2]; exact hw)
    (by rw [← b3]; exact hh) (by omega) (by omega)
  refine ⟨d, u, d1, u1, ?_⟩
  obtain ⟨c1, c2, c3, c4⟩ := d2
  unfold dot
  have e1 : d.samples = x.samples := by omega
  have e2 : d.maps = x.maps := by omega
  have e3 : d.height = y.height := by omega
  have e4 : d.width = y.width := by omega
  rw [e1, e2, e3, e4, hw, hh]
  refine Finset.sum_congr rfl fun s hs => Finset.sum_congr rfl fun m hm' => ?_
  simp only [Finset.mem_range] at hs hm'
  rw [sum_range_mul']
  refine Finset.sum_congr rfl fun Y hY => ?_
  simp only [sum_range_mul']
  rw [Finset.sum_comm]
  refine Finset.sum_congr rfl fun X hX => ?_
  simp only [Finset.mem_range] at hX hY
  rw [d4 X Y m s ⟨by omega, by omega, by omega, by omega⟩, Finset.mul_sum, Finset.sum_mul]
  refine Finset.sum_congr rfl fun ry hry => ?_
  rw [Finset.mul_sum, Finset.sum_mul]
  refine Finset.sum_congr rfl fun rx hrx => ?_
  simp only [Finset.mem_range] at hrx hry
  have i1 := radix_lt hX hrx
  have i2 := radix_lt hY hry
  rw [Nat.mul_comm y.width] at i1
  rw [Nat.mul_comm y.height] at i2
  rw [u4 _ _ m s ⟨by omega, by omega, by omega, by omega⟩]
  have hx' : (X * rw + rx) / rw = X := by
    rw [Nat.add_comm, Nat.add_mul_div_right _ _ (by omega), Nat.div_eq_of_lt hrx]; omega
  have hy' : (Y * rh + ry) / rh = Y := by
    rw [Nat.add_comm, Nat.add_mul_div_right _ _ (by omega), Nat.div_eq_of_lt hry]; omega
  rw [hx', hy']
  ring

/-- C38: DOWN after UP multiplies by the size of the region (and the factors). -/
theorem C38_down_up (y bufd bufu : Tensor R) (rw rh : Nat) (f g : R) (hy : y.WF)
    (hd : bufd.WF) (hu : bufu.WF) (hyd : Sh y bufd)
    (hw : bufu.width = rw * y.width) (hh : bufu.height = rh * y.height) (hm : bufu.maps = y.maps)
    (hsm : bufu.samples = y.samples) :
    ∃ u d, up y bufu rw rh f = some u ∧ down u bufd rw rh g = some d ∧
      ∀ X Y m s, y.InRange X Y m s → d.val X Y m s = g * f * (rw * rh : Nat) * y.val X Y m s := by
  obtain ⟨a1, a2, a3, a4⟩ := hyd
  obtain ⟨u, u1, u2, u3, u4⟩ := C38_up y bufu rw rh f hy hu hw hh hm hsm
  obtain ⟨b1, b2, b3, b4⟩ := u2
  obtain ⟨d, d1, d2, _, d4⟩ := C38_down u bufd rw rh g u3 hd (by rw [← b2, hw, a2])
    (by rw [← b3, hh, a3]) (by omega) (by omega)
  refine ⟨u, d, u1, d1, ?_⟩
  rintro X Y m s ⟨h1, h2, h3, h4⟩
  rw [d4 X Y m s ⟨by omega, by omega, by omega, by omega⟩]
  have : ∀ ry ∈ Finset.range rh, ∀ rx ∈ Finset.range rw,
      u.val (X * rw + rx) (Y * rh + ry) m s = f * y.val X Y m s := by
    intro ry hry rx hrx
    simp only [Finset.mem_range] at hrx hry
    have i1 := radix_lt h1 hrx
    have i2 := radix_lt h2 hry
    rw [Nat.mul_comm y.width] at i1
    rw [Nat.mul_comm y.height] at i2
    rw [u4 _ _ m s ⟨by omega, by omega, by omega, by omega⟩]
    have hx' : (X * rw + rx) / rw = X := by
      rw [Nat.add_comm, Nat.add_mul_div_right _ _ (by omega), Nat.div_eq_of_lt hrx]; omega
    have hy' : (Y * rh + ry) / rh = Y := by
      rw [Nat.add_comm, Nat.add_mul_div_right _ _ (by omega), Nat.div_eq_of_lt hry]; omega
    rw [hx', hy']
  rw [Finset.sum_congr rfl fun ry hry => Finset.sum_congr rfl (this ry hry)]
  simp only [Finset.sum_const, Finset.card_range, nsmul_eq_mul]
  push_cast
  ring

example : down (⟨1, 4, 2, 1, [1, 2, 3, 4, 5, 6, 7, 8]⟩ : Tensor Int) ⟨1, 2, 1, 1, [0, 0]⟩ 2 2 3 =
    some ⟨1, 2, 1, 1, [42, 66]⟩ := by decide +kernel

end CN24.Props
