import Verif.Model.TensorMath
import Verif.Base.Kernel

namespace CN24.TensorMath
open CN24 CN24.Tensor

section
variable {R : Type _} [Zero R] [Add R] [Mul R]

/-- The sum of the first `n` values, added one after another to zero. -/
def sumTo (g : Nat → R) : Nat → R
  | 0 => 0
  | n + 1 => sumTo g n + g n

/-- What `GEMM` writes, with the operations in the order of the code. -/
def gemmValue [DecidableEq R] (alpha beta c sum : R) : R := if beta = 0 then alpha * sum else beta * c + alpha * sum

omit [Mul R] in
theorem forLoop_sumTo {n : Nat} {f : Nat → R → Option R} {g : Nat → R} (h : ∀ k s, k < n → f k s = some (s + g k)) :
    forLoop n f 0 = some (sumTo g n) := by
  induction n with
  | zero => rfl
  | succ n ih =>
    rw [forLoop_succ, ih (fun k s hk => h k s (by omega)), Option.bind_some, h n _ (by omega)]
    rfl

omit [Mul R] in
theorem sumTo_congr {f g : Nat → R} {n : Nat} (h : ∀ k, k < n → f k = g k) : sumTo f n = sumTo g n := by
  induction n with
  | zero => rfl
  | succ n ih => rw [sumTo, sumTo, ih (fun k hk => h k (by omega)), h n (by omega)]

variable [DecidableEq R]

/-- The result in the order of the operations of the code, for any arithmetic. -/
theorem gemm_fold_spec {tA tB : Bool} {M N K : Nat} {alpha beta : R} {A B C : Tensor R}
    {smA ldA smB ldB smC ldC : Nat}
    (hA : ∀ i k, i < M → k < K →
      A.offset 0 0 0 smA + (if tA then k * ldA + i else i * ldA + k) < A.data.length)
    (hB : ∀ k j, k < K → j < N →
      B.offset 0 0 0 smB + (if tB then j * ldB + k else k * ldB + j) < B.data.length)
    (hC : ∀ i j, i < M → j < N → C.offset 0 0 0 smC + (ldC * i + j) < C.data.length)
    (hN : N ≤ ldC) :
    ∃ C', gemm true tA tB M N K alpha A smA ldA B smB ldB beta C smC ldC = .done C' ∧ Sh C C' ∧
      C'.data.length = C.data.length ∧
      (∀ i j, i < M → j < N → C'.data[C.offset 0 0 0 smC + (ldC * i + j)]? =
        some (gemmValue alpha beta (C.data.getD (C.offset 0 0 0 smC + (ldC * i + j)) 0)
          (sumTo (fun k =>
            A.data.getD (A.offset 0 0 0 smA + if tA then k * ldA + i else i * ldA + k) 0 *
            B.data.getD (B.offset 0 0 0 smB + if tB then j * ldB + k else k * ldB + j) 0) K))) ∧
      (∀ p, (∀ i j, i < M → j < N → p ≠ C.offset 0 0 0 smC + (ldC * i + j)) →
        C'.data[p]? = C.data[p]?) := by
  unfold gemm
  simp only [Bool.not_true, Bool.false_eq_true, if_false]
  generalize hidx : (fun i j => C.offset 0 0 0 smC + (ldC * i + j)) = idx
  have hidx' : ∀ i j, C.offset 0 0 0 smC + (ldC * i + j) = idx i j := fun i j => by rw [← hidx]
  have hinj : ∀ i j i' j', j < N → j' < N → idx i j = idx i' j' → i = i' ∧ j = j' := by
    intro i j i' j' hj hj' e
    rw [← hidx', ← hidx'] at e
    have e2 : i * ldC + j = i' * ldC + j' := by
      rw [Nat.mul_comm i, Nat.mul_comm i']; omega
    exact radix_inj (by omega) (by omega) e2
  let S : Nat → Nat → R := fun i j => sumTo (fun k =>
            A.data.getD (A.offset 0 0 0 smA + if tA then k * ldA + i else i * ldA + k) 0 *
            B.data.getD (B.offset 0 0 0 smB + if tB then j * ldB + k else k * ldB + j) 0) K
  let F : Nat → Nat → R → R := fun i j c =>
    if beta = 0 then alpha * S i j else beta * c + alpha * S i j
  have key := forLoop_mods (t0 := C) (t := C) (n := M)
    (f := fun i => forLoop N (fun j C =>
      (forLoop K (fun k sum =>
        (rd A.data (A.offset 0 0 0 smA + if tA then k * ldA + i else i * ldA + k)).bind fun a =>
        (rd B.data (B.offset 0 0 0 smB + if tB then j * ldB + k else k * ldB + j)).map fun b =>
          sum + a * b) 0).bind fun sum =>
      if beta = 0 then C.putElem (C.offset 0 0 0 smC + (ldC * i + j)) (alpha * sum)
      else (rd C.data (C.offset 0 0 0 smC + (ldC * i + j))).bind fun c =>
        C.putElem (C.offset 0 0 0 smC + (ldC * i + j)) (beta * c + alpha * sum)))
    (fun i => (List.range N).flatMap fun j => [(idx i j, F i j)]) (Sh.rfl' C) (by
      intro i u hi hu
      refine forLoop_mods _ hu ?_
      intro j u hj hu
      have hs : forLoop K (fun k sum =>
        (rd A.data (A.offset 0 0 0 smA + if tA then k * ldA + i else i * ldA + k)).bind fun a =>
        (rd B.data (B.offset 0 0 0 smB + if tB then j * ldB + k else k * ldB + j)).map fun b =>
          sum + a * b) 0 = some (S i j) := by
        rw [forLoop_sumTo (g := fun k =>
            A.data.getD (A.offset 0 0 0 smA + if tA then k * ldA + i else i * ldA + k) 0 *
            B.data.getD (B.offset 0 0 0 smB + if tB then j * ldB + k else k * ldB + j) 0)]
        · intro k s hk
          rw [rd_getD 0 (hA i k hi hk), rd_getD 0 (hB k j hk hj)]
          rfl
      rw [hs, Option.bind_some, hu.offset, hidx', ← updElem_eq_mods, rd_bind_putElem,
        putElem_eq_updElem]
      by_cases hb : beta = 0
      · simp only [if_pos hb, F]
      · simp only [if_neg hb, F])
  rw [key]
  obtain ⟨u, h1, h2, h3, h4⟩ := mods_spec (t := C)
    (es := (List.range M).flatMap fun i => (List.range N).flatMap fun j => [(idx i j, F i j)]) (by
    rintro ⟨p, f⟩ he
    simp only [List.mem_flatMap, List.mem_range, List.mem_singleton, Prod.mk.injEq] at he
    obtain ⟨i, hi, j, hj, rfl, _⟩ := he
    rw [← hidx']; exact hC i j hi hj)
  refine ⟨u, by rw [h1]; rfl, h2, h3, ?_, ?_⟩
  · intro i j hi hj
    rw [hidx', h4, updsAt_flatMap, flatMap_range_single _ hi, updsAt_flatMap,
      flatMap_range_single _ hj, updsAt_singleton, if_pos rfl]
    · have hlt := hC i j hi hj
      rw [hidx'] at hlt
      rw [List.getElem?_eq_getElem hlt, Option.map_some, List.getD_eq_getElem?_getD,
        List.getElem?_eq_getElem hlt]
      simp only [applyAll, List.foldl_cons, List.foldl_nil, Option.getD_some, F]
      by_cases hb : beta = 0
      · simp only [gemmValue, if_pos hb]; rfl
      · simp only [gemmValue, if_neg hb]; rfl
    · intro j' hj' hne
      rw [updsAt_singleton, if_neg]
      intro e
      exact hne (hinj _ _ _ _ hj' hj e).2
    · intro i' hi' hne
      rw [updsAt_flatMap, flatMap_range_nil]
      intro j' hj'
      rw [updsAt_singleton, if_neg]
      intro e
      exact hne (hinj _ _ _ _ hj' hj e).1
  · intro p hp
    rw [h4]
    have : (applyAll (updsAt p ((List.range M).flatMap fun i =>
        (List.range N).flatMap fun j => [(idx i j, F i j)]))) = id := by
      funext v
      apply applyAll_updsAt_none
      rintro ⟨q, f⟩ he
      simp only [List.mem_flatMap, List.mem_range, List.mem_singleton, Prod.mk.injEq] at he
      obtain ⟨i, hi, j, hj, rfl, _⟩ := he
      have := hp i j hi hj
      rw [hidx'] at this
      exact Ne.symm this
    rw [this]; simp

end

theorem sumTo_eq {R : Type _} [AddCommMonoid R] (g : Nat → R) (n : Nat) : sumTo g n = ∑ k ∈ Finset.range n, g k := by
  induction n with
  | zero => rfl
  | succ n ih => rw [sumTo, ih, Finset.sum_range_succ]

variable {R : Type _} [CommRing R] [DecidableEq R]

theorem gemmValue_eq (alpha beta c sum : R) : gemmValue alpha beta c sum = beta * c + alpha * sum := by
  unfold gemmValue
  split
  · rename_i h; rw [h]; ring
  · rfl

theorem gemm_spec {tA tB : Bool} {M N K : Nat} {alpha beta : R} {A B C : Tensor R}
    {smA ldA smB ldB smC ldC : Nat}
    (hA : ∀ i k, i < M → k < K →
      A.offset 0 0 0 smA + (if tA then k * ldA + i else i * ldA + k) < A.data.length)
    (hB : ∀ k j, k < K → j < N →
      B.offset 0 0 0 smB + (if tB then j * ldB + k else k * ldB + j) < B.data.length)
    (hC : ∀ i j, i < M → j < N → C.offset 0 0 0 smC + (ldC * i + j) < C.data.length)
    (hN : N ≤ ldC) :
    ∃ C', gemm true tA tB M N K alpha A smA ldA B smB ldB beta C smC ldC = .done C' ∧ Sh C C' ∧
      C'.data.length = C.data.length ∧
      (∀ i j, i < M → j < N → C'.data[C.offset 0 0 0 smC + (ldC * i + j)]? =
        some (beta * C.data.getD (C.offset 0 0 0 smC + (ldC * i + j)) 0 +
          alpha * ∑ k ∈ Finset.range K,
            A.data.getD (A.offset 0 0 0 smA + if tA then k * ldA + i else i * ldA + k) 0 *
            B.data.getD (B.offset 0 0 0 smB + if tB then j * ldB + k else k * ldB + j) 0)) ∧
      (∀ p, (∀ i j, i < M → j < N → p ≠ C.offset 0 0 0 smC + (ldC * i + j)) →
        C'.data[p]? = C.data[p]?) := by
  obtain ⟨C', h1, h2, h3, h4, h5⟩ := gemm_fold_spec (alpha := alpha) (beta := beta) hA hB hC hN
  refine ⟨C', h1, h2, h3, ?_, h5⟩
  intro i j hi hj
  rw [h4 i j hi hj, gemmValue_eq, sumTo_eq]

theorem gemv_spec {tA : Bool} {M N : Nat} {alpha beta : R} {A X Y : Tensor R}
    {smA ldA smX incX smY incY : Nat}
    (hA : ∀ i k, i < M → k < N →
      A.offset 0 0 0 smA + (if tA then k * ldA + i else i * ldA + k) < A.data.length)
    (hX : ∀ k, k < N → X.offset 0 0 0 smX + k * incX < X.data.length)
    (hY : ∀ i, i < M → Y.offset 0 0 0 smY + i * incY < Y.data.length)
    (hinc : 0 < incY) :
    ∃ Y', gemv true tA M N alpha A smA ldA X smX incX beta Y smY incY = .done Y' ∧ Sh Y Y' ∧
      Y'.data.length = Y.data.length ∧
      (∀ i, i < M → Y'.data[Y.offset 0 0 0 smY + i * incY]? =
        some (beta * Y.data.getD (Y.offset 0 0 0 smY + i * incY) 0 +
          alpha * ∑ k ∈ Finset.range N,
            A.data.getD (A.offset 0 0 0 smA + if tA then k * ldA + i else i * ldA + k) 0 *
            X.data.getD (X.offset 0 0 0 smX + k * incX) 0)) ∧
      (∀ p, (∀ i, i < M → p ≠ Y.offset 0 0 0 smY + i * incY) → Y'.data[p]? = Y.data[p]?) := by
  unfold gemv
  simp only [Bool.not_true, Bool.false_eq_true, if_false]
  generalize hidx : (fun i => Y.offset 0 0 0 smY + i * incY) = idx
  have hidx' : ∀ i, Y.offset 0 0 0 smY + i * incY = idx i := fun i => by rw [← hidx]
  have hinj : ∀ i i', idx i = idx i' → i = i' := by
    intro i i' e
    rw [← hidx', ← hidx'] at e
    have e2 : i * incY = i' * incY := by omega
    exact Nat.eq_of_mul_eq_mul_right hinc e2
  let S : Nat → R := fun i => ∑ k ∈ Finset.range N,
            A.data.getD (A.offset 0 0 0 smA + if tA then k * ldA + i else i * ldA + k) 0 *
            X.data.getD (X.offset 0 0 0 smX + k * incX) 0
  let F : Nat → R → R := fun i c =>
    if beta = 0 then alpha * S i else beta * c + alpha * S i
  have key := forLoop_mods (t0 := Y) (t := Y) (n := M)
    (f := fun i Y =>
      (forLoop N (fun j sum =>
        (rd A.data (A.offset 0 0 0 smA + if tA then j * ldA + i else i * ldA + j)).bind fun a =>
        (rd X.data (X.offset 0 0 0 smX + j * incX)).map fun x => sum + x * a) 0).bind fun sum =>
      if beta = 0 then Y.putElem (Y.offset 0 0 0 smY + i * incY) (alpha * sum)
      else (rd Y.data (Y.offset 0 0 0 smY + i * incY)).bind fun y =>
        Y.putElem (Y.offset 0 0 0 smY + i * incY) (beta * y + alpha * sum))
    (fun i => [(idx i, F i)]) (Sh.rfl' Y) (by
      intro i u hi hu
      have hs : forLoop N (fun j sum =>
        (rd A.data (A.offset 0 0 0 smA + if tA then j * ldA + i else i * ldA + j)).bind fun a =>
        (rd X.data (X.offset 0 0 0 smX + j * incX)).map fun x => sum + x * a) 0 = some (S i) := by
        rw [forLoop_sum (g := fun k =>
            A.data.getD (A.offset 0 0 0 smA + if tA then k * ldA + i else i * ldA + k) 0 *
            X.data.getD (X.offset 0 0 0 smX + k * incX) 0)]
        · simp [S]
        · intro k s hk
          rw [rd_getD 0 (hA i k hi hk), rd_getD 0 (hX k hk)]
          simp only [Option.bind_some, Option.map_some]
          rw [mul_comm]
      rw [hs, Option.bind_some, hu.offset, hidx', ← updElem_eq_mods, rd_bind_putElem,
        putElem_eq_updElem]
      by_cases hb : beta = 0
      · simp only [if_pos hb, F]
      · simp only [if_neg hb, F])
  rw [key]
  obtain ⟨u, h1, h2, h3, h4⟩ := mods_spec (t := Y)
    (es := (List.range M).flatMap fun i => [(idx i, F i)]) (by
    rintro ⟨p, f⟩ he
    simp only [List.mem_flatMap, List.mem_range, List.mem_singleton, Prod.mk.injEq] at he
    obtain ⟨i, hi, rfl, _⟩ := he
    rw [← hidx']; exact hY i hi)
  refine ⟨u, by rw [h1]; rfl, h2, h3, ?_, ?_⟩
  · intro i hi
    rw [hidx', h4, updsAt_flatMap, flatMap_range_single _ hi, updsAt_singleton, if_pos rfl]
    · have hlt := hY i hi
      rw [hidx'] at hlt
      rw [List.getElem?_eq_getElem hlt, Option.map_some, List.getD_eq_getElem?_getD,
        List.getElem?_eq_getElem hlt]
      simp only [applyAll, List.foldl_cons, List.foldl_nil, Option.getD_some, F]
      by_cases hb : beta = 0
      · simp only [if_pos hb]; rw [hb]; simp [S]
      · simp only [if_neg hb]; rfl
    · intro j' hj' hne
      rw [updsAt_singleton, if_neg]
      intro e
      exact hne (hinj _ _ e)
  · intro p hp
    rw [h4]
    have : (applyAll (updsAt p ((List.range M).flatMap fun i => [(idx i, F i)]))) = id := by
      funext v
      apply applyAll_updsAt_none
      rintro ⟨q, f⟩ he
      simp only [List.mem_flatMap, List.mem_range, List.mem_singleton, Prod.mk.injEq] at he
      obtain ⟨i, hi, rfl, _⟩ := he
      have := hp i hi
      rw [hidx'] at this
      exact Ne.symm this
    rw [this]; simp

end CN24.TensorMath
