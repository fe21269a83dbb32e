import Verif.Proof.DeviceKernels
import Verif.Props.Pooling

namespace CN24
variable {B : Type} [DecidableEq B] {V : B → Type} {β γ : Type}

/-- The program, begun in the memory `m`, returns `b` and leaves `m1`; it reads and writes only what
`Prog.Within` allows. -/
structure Does (m0 : Mem V) (ro : B → Prop) (W : B → Nat → Prop) (p : Prog V β) (b : β) (m m1 : Mem V) :
    Prop where
  within : ∀ (δ : Type) (q : β → Prog V δ), (q b).Within m0 ro W → (p.bind q).Within m0 ro W
  run : p.run m = some (b, m1)

namespace Does
variable {m0 m m1 m2 : Mem V} {ro : B → Prop} {W : B → Nat → Prop}

theorem ret (b : β) : Does m0 ro W (Prog.ret b) b m m := ⟨fun _ _ h => h, rfl⟩

theorem bind {p : Prog V β} {q : β → Prog V γ} {b : β} {c : γ} (hp : Does m0 ro W p b m m1)
    (hq : Does m0 ro W (q b) c m1 m2) : Does m0 ro W (p.bind q) c m m2 := by
  refine ⟨fun δ r h => ?_, ?_⟩
  · rw [Prog.bind_assoc]
    exact hp.within δ _ (hq.within δ r h)
  · rw [Prog.run_bind, hp.run]
    exact hq.run

theorem get {b : B} {i : Nat} {v : V b} (hb : ro b) (hm : m b = m0 b) (hv : rd (m0 b) i = some v) :
    Does m0 ro W (Prog.get b i) v m m := by
  refine ⟨fun δ q h => .inl ⟨hb, fun w hw => ?_⟩, ?_⟩
  · rw [hv] at hw
    obtain rfl := Option.some.inj hw
    exact h
  · rw [Prog.get, Prog.run, hm, hv]
    rfl

theorem put {b : B} {i : Nat} {v : V b} {l : List (V b)} (hb : ¬ ro b) (hW : W b i)
    (hl : wr (m b) i v = some l) : Does m0 ro W (Prog.put b i v) () m (m.set b l) := by
  refine ⟨fun δ q h => ⟨hb, hW, h⟩, ?_⟩
  rw [Prog.put, Prog.run, hl]
  rfl

theorem loop {n : Nat} {p : Nat → β → Prog V β} (st : Nat → β) (Inv : Nat → Mem V → Prop)
    (h : ∀ i m, i < n → Inv i m → ∃ m', Does m0 ro W (p i (st i)) (st (i + 1)) m m' ∧ Inv (i + 1) m')
    (h0 : Inv 0 m) : ∃ m', Does m0 ro W (Prog.loop n p (st 0)) (st n) m m' ∧ Inv n m' := by
  induction n with
  | zero => exact ⟨m, ret _, h0⟩
  | succ n ih =>
    obtain ⟨m1, h1, h2⟩ := ih fun i m hi => h i m (by omega)
    obtain ⟨m2, h3, h4⟩ := h n m1 (by omega) h2
    exact ⟨m2, h1.bind h3, h4⟩

omit [DecidableEq B] in
theorem bind_ret (p : Prog V β) : p.bind Prog.ret = p := by
  induction p with
  | ret => rfl
  | read b i k ih => simp only [Prog.bind]; congr 1; funext v; exact ih v
  | write b i v k ih => simp only [Prog.bind, ih]

theorem footprint {p : Prog V β} {b : β} (h : Does m0 ro W p b m m1) : p.Within m0 ro W := by
  have := h.within β Prog.ret trivial
  rwa [bind_ret] at this

end Does
end CN24

namespace CN24.DeviceKernels
open CN24 CN24.Parallel CN24.Tensor
variable {R : Type}

/-! ### The search in a region -/

/-- The states of a loop. -/
def after {β : Type} (f : Nat → β → β) (s : β) : Nat → β
  | 0 => s
  | n + 1 => f n (after f s n)

/-- The search of the kernels in a region with the values `v`, row by row. -/
def regionScan [LT R] [DecidableLT R] (lowest : R) (v : Nat → Nat → R) (rw rh : Nat) : R × Nat × Nat :=
  after (fun j st => after (fun i st => Pooling.scanStep i j (v i j) st) st rw) (lowest, 0, 0) rh

section
variable [LinearOrder R]

/-- Position `i'`, `j'` comes before `i`, `j` in row order. -/
def Before (i' j' i j : Nat) : Prop := j' < j ∨ (j' = j ∧ i' < i)

/-- Among the positions seen, the first one in row order with the greatest value; the start value if
none is above it. -/
def FirstMax (lowest : R) (v : Nat → Nat → R) (seen : Nat → Nat → Prop) (r : R × Nat × Nat) : Prop :=
  ((∀ i j, seen i j → v i j ≤ lowest) ∧ r = (lowest, 0, 0)) ∨
  ∃ i j, seen i j ∧ r = (v i j, i, j) ∧ lowest < v i j ∧
    ∀ i' j', seen i' j' → v i' j' ≤ v i j ∧ (Before i' j' i j → v i' j' < v i j)

theorem FirstMax.congr {lowest : R} {v : Nat → Nat → R} {seen seen' : Nat → Nat → Prop} {r : R × Nat × Nat}
    (h : FirstMax lowest v seen r) (he : ∀ i j, seen i j ↔ seen' i j) : FirstMax lowest v seen' r := by
  have : seen = seen' := by funext i j; exact propext (he i j)
  exact this ▸ h

theorem FirstMax.step {lowest : R} {v : Nat → Nat → R} {seen : Nat → Nat → Prop} {r : R × Nat × Nat}
    (h : FirstMax lowest v seen r) {i j : Nat} (hn : ∀ i' j', seen i' j' → Before i' j' i j) :
    FirstMax lowest v (fun a b => seen a b ∨ (a = i ∧ b = j)) (Pooling.scanStep i j (v i j) r) := by
  unfold Pooling.scanStep
  rcases h with ⟨h1, rfl⟩ | ⟨a, b, h1, rfl, h2, h3⟩
  · by_cases hl : lowest < v i j
    · rw [if_pos hl]
      refine .inr ⟨i, j, .inr ⟨rfl, rfl⟩, rfl, hl, ?_⟩
      rintro i' j' (h | ⟨rfl, rfl⟩)
      · exact ⟨((h1 _ _ h).trans_lt hl).le, fun _ => (h1 _ _ h).trans_lt hl⟩
      · exact ⟨le_refl _, fun hb => by unfold Before at hb; omega⟩
    · rw [if_neg hl]
      refine .inl ⟨?_, rfl⟩
      rintro i' j' (h | ⟨rfl, rfl⟩)
      · exact h1 _ _ h
      · exact not_lt.1 hl
  · by_cases hl : v a b < v i j
    · rw [if_pos hl]
      refine .inr ⟨i, j, .inr ⟨rfl, rfl⟩, rfl, h2.trans hl, ?_⟩
      rintro i' j' (h | ⟨rfl, rfl⟩)
      · exact ⟨((h3 _ _ h).1.trans_lt hl).le, fun _ => (h3 _ _ h).1.trans_lt hl⟩
      · exact ⟨le_refl _, fun hb => by unfold Before at hb; omega⟩
    · rw [if_neg hl]
      refine .inr ⟨a, b, .inl h1, rfl, h2, ?_⟩
      rintro i' j' (h | ⟨rfl, rfl⟩)
      · exact h3 _ _ h
      · refine ⟨not_lt.1 hl, fun hb => ?_⟩
        have := hn _ _ h1
        unfold Before at hb this
        omega

theorem regionScan_spec (lowest : R) (v : Nat → Nat → R) (rw rh : Nat) :
    FirstMax lowest v (fun i j => i < rw ∧ j < rh) (regionScan lowest v rw rh) := by
  unfold regionScan
  induction rh with
  | zero => exact .inl ⟨fun i j h => by omega, rfl⟩
  | succ j ih =>
    simp only [after]
    generalize after (fun j st => after (fun i st => Pooling.scanStep i j (v i j) st) st rw)
      (lowest, 0, 0) j = r at ih
    have key : ∀ n, n ≤ rw → FirstMax lowest v (fun a b => (a < rw ∧ b < j) ∨ (b = j ∧ a < n))
        (after (fun i st => Pooling.scanStep i j (v i j) st) r n) := by
      intro n
      induction n with
      | zero => exact fun _ => ih.congr fun a b => by omega
      | succ n ihn =>
        intro hn
        refine ((ihn (by omega)).step (i := n) (j := j) fun a b h => ?_).congr fun a b => by omega
        unfold Before; omega
    exact (key rw (Nat.le_refl _)).congr fun a b => by omega

theorem regionScan_inside (lowest : R) (v : Nat → Nat → R) {rw rh : Nat} (hrw : 0 < rw) (hrh : 0 < rh) :
    (regionScan lowest v rw rh).2.1 < rw ∧ (regionScan lowest v rw rh).2.2 < rh := by
  rcases regionScan_spec lowest v rw rh with ⟨_, h⟩ | ⟨i, j, h1, h, _⟩ <;> rw [h]
  · exact ⟨hrw, hrh⟩
  · exact h1

end

/-! ### src/net/MaxPoolingLayer.cpp -/

/-- The elements that a work item of the forward kernel writes. -/
def maxCells (yp : Nat) (pos : Nat → Nat → Nat) (rw rh : Nat) (b : Buf) (k : Nat) : Prop :=
  (b = .val 0 ∧ k = yp) ∨ (b = .val 1 ∧ ∃ i j, i < rw ∧ j < rh ∧ k = pos i j)

theorem maxForwardItem_does [LinearOrder R] [Zero R] [One R] (lowest : R)
    (iw ih ow oh rw rh ox oy skid : Nat) (hrw : 0 < rw) (hrh : 0 < rh) {Y M X : List R}
    {v : Nat → Nat → R} {pos : Nat → Nat → Nat}
    (hpos : ∀ i j, pos i j = iw * ih * skid + iw * (oy * rh + j) + ox * rw + i)
    (hX : ∀ i j, i < rw → j < rh → X[pos i j]? = some (v i j))
    (hM : ∀ i j, i < rw → j < rh → pos i j < M.length)
    (hY : ow * oh * skid + ow * oy + ox < Y.length) :
    ∃ mm, Does (memOf [Y, M, X] []) (fun b => b ≠ .val 0 ∧ b ≠ .val 1)
        (maxCells (ow * oh * skid + ow * oy + ox) pos rw rh)
        (maxForwardItem lowest iw ih ow oh rw rh ox oy skid) ()
        (memOf [Y, M, X] [])
        (memOf [Y.set (ow * oh * skid + ow * oy + ox) (regionScan lowest v rw rh).1, mm, X] []) ∧
      mm.length = M.length ∧ ∀ i j, i < rw → j < rh →
        mm[pos i j]? = some (if pos i j = pos (regionScan lowest v rw rh).2.1
          (regionScan lowest v rw rh).2.2 then 1 else 0) := by
  let W := maxCells (ow * oh * skid + ow * oy + ox) pos rw rh
  let ro : Buf → Prop := fun b => b ≠ .val 0 ∧ b ≠ .val 1
  let m0 := memOf [Y, M, X] []
  -- the search
  have hloop := Does.loop (m0 := m0) (ro := ro) (W := W) (n := rh)
    (p := fun y => Prog.loop rw fun x st =>
      (store 1 (iw * ih * skid + iw * (oy * rh + y) + ox * rw + x) 0).bind fun _ =>
      (load 2 (iw * ih * skid + iw * (oy * rh + y) + ox * rw + x)).bind fun w =>
      .ret (Pooling.scanStep x y w st))
    (after (fun j st => after (fun i st => Pooling.scanStep i j (v i j) st) st rw) (lowest, 0, 0))
    (fun j m => ∃ mm, m = memOf [Y, mm, X] [] ∧ mm.length = M.length ∧
      ∀ a b, a < rw → b < j → mm[pos a b]? = some 0)
    (m := m0) ?_ ⟨M, rfl, rfl, fun a b _ hb => by omega⟩
  · obtain ⟨m1, hd, mm, rfl, hlen, hzero⟩ := hloop
    obtain ⟨q1, q2⟩ := regionScan_inside lowest v hrw hrh
    change Does m0 ro W _ (regionScan lowest v rw rh) m0 _ at hd
    generalize regionScan lowest v rw rh = r at *
    have hp : pos r.2.1 r.2.2 < mm.length := by rw [hlen]; exact hM _ _ q1 q2
    refine ⟨mm.set (pos r.2.1 r.2.2) 1, ?_, by simp [hlen], ?_⟩
    · refine hd.bind (Does.bind (b := ()) (m1 := memOf [Y, mm.set (pos r.2.1 r.2.2) 1, X] []) ?_ ?_)
      · have := Does.put (m0 := m0) (ro := ro) (W := W) (m := memOf [Y, mm, X] []) (b := Buf.val 1)
          (i := pos r.2.1 r.2.2) (v := (1 : R)) (by simp [ro]) (.inr ⟨rfl, _, _, q1, q2, rfl⟩)
          (wr_of_lt (b := mm) hp)
        rw [memOf_set_val _ _ (by simp)] at this
        rw [← hpos]
        exact this
      · have := Does.put (m0 := m0) (ro := ro) (W := W)
          (m := memOf [Y, mm.set (pos r.2.1 r.2.2) 1, X] []) (b := Buf.val 0)
          (i := ow * oh * skid + ow * oy + ox) (v := r.1) (by simp [ro]) (.inl ⟨rfl, rfl⟩)
          (wr_of_lt (b := Y) hY)
        rw [memOf_set_val _ _ (by simp)] at this
        exact this
    · intro i j hi hj
      by_cases he : pos i j = pos r.2.1 r.2.2
      · rw [he, if_pos rfl]; simp [hp]
      · rw [if_neg he, List.getElem?_set_ne (Ne.symm he)]
        exact hzero i j hi hj
  · rintro j m hj ⟨mm, rfl, hlen, hz⟩
    have hrow := Does.loop (m0 := m0) (ro := ro) (W := W) (n := rw)
      (p := fun x st =>
        (store 1 (iw * ih * skid + iw * (oy * rh + j) + ox * rw + x) 0).bind fun _ =>
        (load 2 (iw * ih * skid + iw * (oy * rh + j) + ox * rw + x)).bind fun w =>
        .ret (Pooling.scanStep x j w st))
      (after (fun i st => Pooling.scanStep i j (v i j) st)
        (after (fun j st => after (fun i st => Pooling.scanStep i j (v i j) st) st rw) (lowest, 0, 0) j))
      (fun i m => ∃ mm, m = memOf [Y, mm, X] [] ∧ mm.length = M.length ∧
        (∀ a b, a < rw → b < j → mm[pos a b]? = some 0) ∧ ∀ a, a < i → mm[pos a j]? = some 0)
      (m := memOf [Y, mm, X] []) ?_ ⟨mm, rfl, hlen, hz, fun a ha => by omega⟩
    · obtain ⟨m1, hd, mm1, rfl, h1, h2, h3⟩ := hrow
      refine ⟨_, hd, mm1, rfl, h1, fun a b ha hb => ?_⟩
      rcases Nat.lt_succ_iff_lt_or_eq.1 hb with h | rfl
      · exact h2 a b ha h
      · exact h3 a ha
    · rintro i m hi ⟨mm, rfl, hlen, h2, h3⟩
      have hp : pos i j < mm.length := by rw [hlen]; exact hM i j hi hj
      refine ⟨memOf [Y, mm.set (pos i j) 0, X] [], ?_, mm.set (pos i j) 0, rfl, by simp [hlen], ?_, ?_⟩
      · refine Does.bind (b := ()) (m1 := memOf [Y, mm.set (pos i j) 0, X] []) ?_ ?_
        · have := Does.put (m0 := m0) (ro := ro) (W := W) (m := memOf [Y, mm, X] []) (b := Buf.val 1)
            (i := pos i j) (v := (0 : R)) (by simp [ro]) (.inr ⟨rfl, _, _, hi, hj, rfl⟩)
            (wr_of_lt (b := mm) hp)
          rw [memOf_set_val _ _ (by simp)] at this
          rw [← hpos]
          exact this
        · refine Does.bind (b := v i j) (m1 := memOf [Y, mm.set (pos i j) 0, X] []) ?_ (Does.ret _)
          rw [← hpos]
          exact Does.get (b := Buf.val 2) (by simp [ro]) rfl (hX i j hi hj)
      · intro a b ha hb
        by_cases he : pos i j = pos a b
        · rw [he]; simp only [List.getElem?_set_self (he ▸ hp)]
        · rw [List.getElem?_set_ne he]; exact h2 a b ha hb
      · intro a ha
        by_cases he : pos i j = pos a j
        · rw [he]; simp only [List.getElem?_set_self (he ▸ hp)]
        · rw [List.getElem?_set_ne he]; exact h3 a (by
            rcases Nat.lt_succ_iff_lt_or_eq.1 ha with h | rfl
            · exact h
            · exact absurd rfl he)

/-- The result of the search in the region of an output. -/
def poolScan [LT R] [DecidableLT R] [Zero R] (lowest : R) (input : Tensor R) (rw rh sw sh ox oy m s : Nat) :
    R × Nat × Nat :=
  regionScan lowest (fun i j => input.val (ox * sw + i) (oy * sh + j) m s) rw rh

theorem plane_inj {w h x y k x' y' k' : Nat} (hx : x < w) (hx' : x' < w) (hy : y < h) (hy' : y' < h)
    (e : w * h * k + w * y + x = w * h * k' + w * y' + x') : x = x' ∧ y = y' ∧ k = k' := by
  have e' : (k * h + y) * w + x = (k' * h + y') * w + x' := by
    calc _ = w * h * k + w * y + x := by ring
      _ = _ := e
      _ = _ := by ring
  obtain ⟨e1, e2⟩ := radix_inj hx hx' e'
  obtain ⟨e3, e4⟩ := radix_inj hy hy' e1
  exact ⟨e2, e4, e3⟩

theorem maxForward_gives [LinearOrder R] [Zero R] [One R] (lowest : R) {input output mask u k : Tensor R}
    {rw rh : Nat} (hrw : 0 < rw) (hrh : 0 < rh) (hi : input.WF) (ho : output.WF) (hm : mask.WF)
    (hmi : Sh input mask) (hs : output.samples = input.samples) (hmaps : output.maps = input.maps)
    (hw : input.width = output.width * rw) (hh : input.height = output.height * rh)
    (hu : u.WF) (huo : Sh output u) (hk : k.WF) (hki : Sh input k)
    (hval : ∀ ox oy m s, output.InRange ox oy m s →
      u.get ox oy m s = some (poolScan lowest input rw rh rw rh ox oy m s).1)
    (hmask : ∀ x y m s, input.InRange x y m s → k.get x y m s =
      some (if x % rw = (poolScan lowest input rw rh rw rh (x / rw) (y / rh) m s).2.1 ∧
        y % rh = (poolScan lowest input rw rh rw rh (x / rw) (y / rh) m s).2.2 then 1 else 0)) :
    (maxForward lowest rw rh input output).Gives (memOf [output.data, mask.data, input.data] [])
      (memOf [u.data, k.data, input.data] []) := by
  have hout : ∀ {ox i : Nat}, ox < output.width → i < rw → ox * rw + i < input.width := by
    intro ox i h1 h2; rw [hw]; exact radix_lt h1 h2
  have houth : ∀ {oy j : Nat}, oy < output.height → j < rh → oy * rh + j < input.height := by
    intro oy j h1 h2; rw [hh]; exact radix_lt h1 h2
  let oxi : Nat → Nat := fun i => i % output.width
  let oyi : Nat → Nat := fun i => i / output.width % output.height
  let ski : Nat → Nat := fun i => i / (output.width * output.height)
  let pos : Nat → Nat → Nat → Nat := fun t a b =>
    input.width * input.height * ski t + input.width * (oyi t * rh + b) + oxi t * rw + a
  have hids : ∀ t, t < output.width * output.height * (input.maps * input.samples) →
      oxi t < output.width ∧ oyi t < output.height ∧ ski t < input.maps * input.samples ∧
      t = output.width * output.height * ski t + output.width * oyi t + oxi t := fun t ht => grid_ids ht
  have hpos : ∀ t a b, pos t a b = input.offset (oxi t * rw + a) (oyi t * rh + b) (ski t % input.maps)
      (ski t / input.maps) := by
    intro t a b
    rw [plane_offset]
    simp only [pos]
    omega
  have hin : ∀ t, t < output.width * output.height * (input.maps * input.samples) → ∀ a b, a < rw → b < rh →
      input.InRange (oxi t * rw + a) (oyi t * rh + b) (ski t % input.maps) (ski t / input.maps) := by
    intro t ht a b ha hb
    obtain ⟨a1, a2, a3, _⟩ := hids t ht
    exact plane_inRange (hout a1 ha) (houth a2 hb) a3
  -- equal positions
  have hposinj : ∀ t t', t < output.width * output.height * (input.maps * input.samples) →
      t' < output.width * output.height * (input.maps * input.samples) → ∀ a b a' b', a < rw → b < rh →
      a' < rw → b' < rh → pos t a b = pos t' a' b' → t = t' ∧ a = a' ∧ b = b' := by
    intro t t' ht ht' a b a' b' ha hb ha' hb' e
    obtain ⟨a1, a2, a3, a4⟩ := hids t ht
    obtain ⟨b1, b2, b3, b4⟩ := hids t' ht'
    obtain ⟨e1, e2, e3⟩ := plane_inj (hout a1 ha) (hout b1 ha') (houth a2 hb) (houth b2 hb')
      (by simp only [pos] at e; omega :
        input.width * input.height * ski t + input.width * (oyi t * rh + b) + (oxi t * rw + a) =
        input.width * input.height * ski t' + input.width * (oyi t' * rh + b') + (oxi t' * rw + a'))
    obtain ⟨f1, f2⟩ := radix_inj ha ha' e1
    obtain ⟨f3, f4⟩ := radix_inj hb hb' e2
    refine ⟨?_, f2, f4⟩
    rw [a4, b4, e3, f1, f3]
  have hitem : ∀ t, t < output.width * output.height * (input.maps * input.samples) → ∃ mm, _ :=
    fun t ht => maxForwardItem_does (R := R) lowest input.width input.height output.width output.height
      rw rh (oxi t) (oyi t) (ski t) hrw hrh (Y := output.data) (M := mask.data) (X := input.data)
      (v := fun i j => input.val (oxi t * rw + i) (oyi t * rh + j) (ski t % input.maps) (ski t / input.maps))
      (pos := pos t) (fun i j => rfl)
      (fun i j h1 h2 => by rw [hpos]; exact get_eq_val hi (hin t ht i j h1 h2))
      (fun i j h1 h2 => by rw [hm, hmi.elements, hpos]; exact offset_lt _ (hin t ht i j h1 h2))
      (by
        obtain ⟨_, _, _, a4⟩ := hids t ht
        rw [← a4, ho]
        refine lt_of_lt_of_eq (show t < output.width * output.height * (input.maps * input.samples) from ht) ?_
        simp only [elements, hs, hmaps]; ring)
  choose! mm hdoes hlen hmm using hitem
  refine everySchedule_of_each (W := fun t => maxCells (output.width * output.height * ski t +
      output.width * oyi t + oxi t) (pos t) rw rh)
    (fun t ht => (hdoes t ht).footprint) ?_
    (fun t => memOf [output.data.set (output.width * output.height * ski t + output.width * oyi t + oxi t)
      (regionScan lowest (fun i j => input.val (oxi t * rw + i) (oyi t * rh + j) (ski t % input.maps)
        (ski t / input.maps)) rw rh).1, mm t, input.data] []) (fun t ht => ⟨(hdoes t ht).run, ?_⟩) ?_
  · intro t t' ht ht' hne b c h1 h2
    rcases h1 with ⟨rfl, rfl⟩ | ⟨rfl, a, b, ha, hb, rfl⟩ <;>
      rcases h2 with ⟨h3, h4⟩ | ⟨h3, a', b', ha', hb', h4⟩
    · exact hne (by
        obtain ⟨_, _, _, a4⟩ := hids t ht
        obtain ⟨_, _, _, b4⟩ := hids t' ht'
        exact a4.trans (h4.trans b4.symm))
    · simp at h3
    · simp at h3
    · exact hne (hposinj t t' ht ht' a b a' b' ha hb ha' hb' h4).1
  · obtain ⟨a1, a2, a3, a4⟩ := hids t ht
    intro b c h1
    rcases h1 with ⟨rfl, rfl⟩ | ⟨rfl, a, b, ha, hb, rfl⟩
    · have hlt : output.width * output.height * ski t + output.width * oyi t + oxi t <
          output.data.length := by
        rw [← a4, ho]
        refine lt_of_lt_of_eq (show t < output.width * output.height * (input.maps * input.samples) from ht) ?_
        simp only [elements, hs, hmaps]; ring
      have hv := hval _ _ _ _ (plane_inRange (t := output) (skid := ski t) a1 a2 (by rw [hs, hmaps]; exact a3))
      rw [get_eq_at, huo.offset, plane_offset, hmaps] at hv
      show u.data[_]? = (output.data.set _ _)[_]?
      rw [hv, List.getElem?_set_self hlt]
      rfl
    · have hv := hmask _ _ _ _ (hin t ht a b ha hb)
      rw [get_eq_at, hki.offset, ← hpos] at hv
      have d1 : (oxi t * rw + a) / rw = oxi t := by
        rw [Nat.add_comm, Nat.add_mul_div_right _ _ hrw, Nat.div_eq_of_lt ha, Nat.zero_add]
      have d2 : (oxi t * rw + a) % rw = a := by
        rw [Nat.add_comm, Nat.add_mul_mod_self_right, Nat.mod_eq_of_lt ha]
      have d3 : (oyi t * rh + b) / rh = oyi t := by
        rw [Nat.add_comm, Nat.add_mul_div_right _ _ hrh, Nat.div_eq_of_lt hb, Nat.zero_add]
      have d4 : (oyi t * rh + b) % rh = b := by
        rw [Nat.add_comm, Nat.add_mul_mod_self_right, Nat.mod_eq_of_lt hb]
      rw [d1, d2, d3, d4] at hv
      show k.data[_]? = (mm t)[_]?
      rw [hv, hmm t ht a b ha hb]
      congr 1
      refine if_congr ?_ rfl rfl
      obtain ⟨q1, q2⟩ := regionScan_inside lowest (fun i j => input.val (oxi t * rw + i) (oyi t * rh + j)
        (ski t % input.maps) (ski t / input.maps)) hrw hrh
      constructor
      · rintro ⟨h1, h2⟩
        exact congrArg₂ (pos t) h1 h2
      · intro h
        exact (hposinj t t ht ht _ _ _ _ ha hb q1 q2 h).2
  · intro b c hno
    match b, hno with
    | .val 0, hno =>
      have hc : output.data.length ≤ c := by
        rcases Nat.lt_or_ge c output.data.length with h | h
        · have hc' : c < output.width * output.height * (input.maps * input.samples) := by
            rw [ho] at h
            refine lt_of_lt_of_eq h ?_
            simp only [elements, hs, hmaps]; ring
          exact absurd (.inl ⟨rfl, (hids c hc').2.2.2⟩) (hno c hc')
        · exact h
      show u.data[c]? = output.data[c]?
      rw [List.getElem?_eq_none (by rw [hu, huo.elements, ← ho]; exact hc), List.getElem?_eq_none hc]
    | .val 1, hno =>
      have hc : mask.data.length ≤ c := by
        rcases Nat.lt_or_ge c mask.data.length with h | h
        · have hc' : c < input.width * input.height * (input.maps * input.samples) := by
            rw [hm, hmi.elements] at h
            refine lt_of_lt_of_eq h ?_
            simp only [elements]; ring
          obtain ⟨a1, a2, a3, a4⟩ := grid_ids hc'
          have b1 : c % input.width / rw < output.width := Nat.div_lt_of_lt_mul (by rw [Nat.mul_comm, ← hw]; exact a1)
          have b2 : c / input.width % input.height / rh < output.height :=
            Nat.div_lt_of_lt_mul (by rw [Nat.mul_comm, ← hh]; exact a2)
          have ht := grid_lt b1 b2 a3
          obtain ⟨g1, g2, g3⟩ := grid_of (s := c / (input.width * input.height)) b1 b2
          refine absurd (.inr ⟨rfl, c % input.width % rw, c / input.width % input.height % rh,
            Nat.mod_lt _ hrw, Nat.mod_lt _ hrh, ?_⟩) (hno _ ht)
          simp only [pos, oxi, oyi, ski, g1, g2, g3]
          have m1 := Nat.div_add_mod (c % input.width) rw
          have m2 := Nat.div_add_mod (c / input.width % input.height) rh
          rw [Nat.mul_comm (c / input.width % input.height / rh), m2, Nat.add_assoc,
            Nat.mul_comm (c % input.width / rw), m1]
          exact a4
        · exact h
      show k.data[c]? = mask.data[c]?
      rw [List.getElem?_eq_none (by rw [hk, hki.elements, ← hmi.elements, ← hm]; exact hc),
        List.getElem?_eq_none hc]
    | .val (n + 2), _ => rfl
    | .idx n, _ => rfl

theorem maxBackward_gives [CommRing R] {inputDelta mask outputDelta q : Tensor R} {rw rh : Nat}
    (hi : inputDelta.WF) (hm : mask.WF) (ho : outputDelta.WF) (hmi : Sh inputDelta mask)
    (hs : outputDelta.samples = inputDelta.samples) (hmaps : outputDelta.maps = inputDelta.maps)
    (hw : inputDelta.width = outputDelta.width * rw) (hh : inputDelta.height = outputDelta.height * rh)
    (hq : q.WF) (hiq : Sh inputDelta q)
    (hval : ∀ x y m s, inputDelta.InRange x y m s →
      q.get x y m s = some (mask.val x y m s * outputDelta.val (x / rw) (y / rh) m s)) :
    (maxBackward rw rh inputDelta outputDelta).Gives
      (memOf [inputDelta.data, mask.data, outputDelta.data] [])
      (memOf [q.data, mask.data, outputDelta.data] []) := by
  refine gives_of_pixels (fun x y m s => mask.val x y m s * outputDelta.val (x / rw) (y / rh) m s) _ rfl hi
    hq hiq ?_ hval
  intro x y skid hin
  have hin' := hin
  obtain ⟨i1, i2, i3, i4⟩ := hin'
  have h1 : x / rw < outputDelta.width := Nat.div_lt_of_lt_mul (by rw [Nat.mul_comm, ← hw]; exact i1)
  have h2 : y / rh < outputDelta.height := Nat.div_lt_of_lt_mul (by rw [Nat.mul_comm, ← hh]; exact i2)
  have g1 := get_eq_val hm (hmi.inRange.2 hin)
  rw [get_eq_at, hmi.offset, plane_offset] at g1
  have g2 := get_eq_val ho (x := x / rw) (y := y / rh) (m := skid % outputDelta.maps)
    (s := skid / outputDelta.maps) ⟨h1, h2, by rw [hmaps]; exact i3, by rw [hs, hmaps]; exact i4⟩
  rw [get_eq_at, plane_offset] at g2
  unfold maxBackwardItem
  refine Runs.congr (Runs.eval (load1_some (d := mask.data) rfl g1) fun a ha =>
    Runs.eval (load1_some (d := outputDelta.data) rfl g2) fun b hb =>
      store1 (W := at0 _) (a * b) ⟨rfl, rfl⟩) fun t _ => ?_
  rw [hmaps]
  rfl

/-! ### src/net/AdvancedMaxPoolingLayer.cpp -/

/-- The elements that a work item of the forward kernel writes. -/
def advCells (yp : Nat) (b : Buf) (k : Nat) : Prop := (b = .val 0 ∨ b = .idx 0) ∧ k = yp

theorem advForwardItem_does [LinearOrder R] (lowest : R) (iw ih ow oh rw rh sw sh ox oy skid : Nat)
    {Y X : List R} {M : List Nat} {v : Nat → Nat → R}
    (hX : ∀ i j, i < rw → j < rh →
      X[iw * ih * skid + iw * (oy * sh + j) + ox * sw + i]? = some (v i j))
    (hY : ow * oh * skid + ow * oy + ox < Y.length) (hM : ow * oh * skid + ow * oy + ox < M.length) :
    Does (memOf [Y, X] [M]) (fun b => b ≠ .val 0 ∧ b ≠ .idx 0)
        (advCells (ow * oh * skid + ow * oy + ox))
        (advForwardItem lowest iw ih ow oh rw rh sw sh ox oy skid) ()
        (memOf [Y, X] [M])
        (memOf [Y.set (ow * oh * skid + ow * oy + ox) (regionScan lowest v rw rh).1, X]
          [M.set (ow * oh * skid + ow * oy + ox) ((oy * sh + (regionScan lowest v rw rh).2.2) * iw +
            (ox * sw + (regionScan lowest v rw rh).2.1))]) := by
  let W := advCells (ow * oh * skid + ow * oy + ox)
  let ro : Buf → Prop := fun b => b ≠ .val 0 ∧ b ≠ .idx 0
  let m0 := memOf [Y, X] [M]
  have hloop := Does.loop (m0 := m0) (ro := ro) (W := W) (n := rh)
    (p := fun y => Prog.loop rw fun x st =>
      (load 1 (iw * ih * skid + iw * (oy * sh + y) + ox * sw + x)).bind fun w =>
      .ret (Pooling.scanStep x y w st))
    (after (fun j st => after (fun i st => Pooling.scanStep i j (v i j) st) st rw) (lowest, 0, 0))
    (fun _ m => m = m0) (m := m0) ?_ rfl
  · obtain ⟨m1, hd, rfl⟩ := hloop
    change Does m0 ro W _ (regionScan lowest v rw rh) m0 _ at hd
    generalize regionScan lowest v rw rh = r at *
    have h1 := Does.put (m0 := m0) (ro := ro) (W := W) (m := m0) (b := Buf.val 0)
      (i := ow * oh * skid + ow * oy + ox) (v := r.1) (by simp [ro]) ⟨.inl rfl, rfl⟩
      (wr_of_lt (b := Y) hY)
    have h2 := Does.put (m0 := m0) (ro := ro) (W := W)
      (m := memOf [Y.set (ow * oh * skid + ow * oy + ox) r.1, X] [M]) (b := Buf.idx 0)
      (i := ow * oh * skid + ow * oy + ox)
      (v := ((oy * sh + r.2.2) * iw + (ox * sw + r.2.1) : Nat)) (by simp [ro]) ⟨.inr rfl, rfl⟩
      (wr_of_lt (b := M) hM)
    rw [memOf_set_val _ _ (by simp)] at h1
    rw [memOf_set_idx _ _ (by simp)] at h2
    exact hd.bind (h1.bind h2)
  · rintro j m hj rfl
    have hrow := Does.loop (m0 := m0) (ro := ro) (W := W) (n := rw)
      (p := fun x st =>
        (load 1 (iw * ih * skid + iw * (oy * sh + j) + ox * sw + x)).bind fun w =>
        .ret (Pooling.scanStep x j w st))
      (after (fun i st => Pooling.scanStep i j (v i j) st)
        (after (fun j st => after (fun i st => Pooling.scanStep i j (v i j) st) st rw) (lowest, 0, 0) j))
      (fun _ m => m = m0) (m := m0) ?_ rfl
    · exact hrow
    · rintro i m hi rfl
      exact ⟨m0, Does.bind (Does.get (b := Buf.val 1) (by simp [ro]) rfl (hX i j hi hj)) (Does.ret _), rfl⟩

theorem advForward_gives [LinearOrder R] [Zero R] (lowest : R) {input output u : Tensor R}
    {mask k : Tensor Nat} {rw rh sw sh : Nat} (hi : input.WF) (ho : output.WF) (hm : mask.WF)
    (hmo : Sh output mask) (hs : output.samples = input.samples) (hmaps : output.maps = input.maps)
    (hw : ∀ ox, ox < output.width → ox * sw + rw ≤ input.width)
    (hh : ∀ oy, oy < output.height → oy * sh + rh ≤ input.height)
    (hu : u.WF) (huo : Sh output u) (hk : k.WF) (hko : Sh output k)
    (hval : ∀ ox oy m s, output.InRange ox oy m s →
      u.get ox oy m s = some (poolScan lowest input rw rh sw sh ox oy m s).1)
    (hmask : ∀ ox oy m s, output.InRange ox oy m s → k.get ox oy m s =
      some ((oy * sh + (poolScan lowest input rw rh sw sh ox oy m s).2.2) * input.width +
        (ox * sw + (poolScan lowest input rw rh sw sh ox oy m s).2.1))) :
    (advForward lowest rw rh sw sh input output).Gives (memOf [output.data, input.data] [mask.data])
      (memOf [u.data, input.data] [k.data]) := by
  have hn : output.elements = output.width * output.height * (input.maps * input.samples) := by
    simp only [elements, hs, hmaps]; ring
  have hlt : ∀ t, t < output.width * output.height * (input.maps * input.samples) →
      output.width * output.height * (t / (output.width * output.height)) +
        output.width * (t / output.width % output.height) + t % output.width < output.elements := by
    intro t ht
    rw [hn, ← (grid_ids ht).2.2.2]
    exact ht
  have hdoes : ∀ t, t < output.width * output.height * (input.maps * input.samples) → _ :=
    fun t ht => advForwardItem_does (R := R) lowest input.width input.height output.width output.height
      rw rh sw sh (t % output.width) (t / output.width % output.height)
      (t / (output.width * output.height)) (Y := output.data) (M := mask.data) (X := input.data)
      (v := fun i j => input.val (t % output.width * sw + i) (t / output.width % output.height * sh + j)
        (t / (output.width * output.height) % input.maps) (t / (output.width * output.height) / input.maps))
      (fun i j h1 h2 => by
        obtain ⟨a1, a2, a3, a4⟩ := grid_ids ht
        have := hw _ a1
        have := hh _ a2
        have g := get_eq_val hi (plane_inRange (t := input) (x := t % output.width * sw + i)
          (y := t / output.width % output.height * sh + j) (by omega) (by omega) a3)
        rw [get_eq_at, plane_offset, ← Nat.add_assoc] at g
        exact g)
      (by rw [ho]; exact hlt t ht) (by rw [hm, hmo.elements]; exact hlt t ht)
  refine everySchedule_of_each (W := fun t => advCells
      (output.width * output.height * (t / (output.width * output.height)) +
        output.width * (t / output.width % output.height) + t % output.width))
    (fun t ht => (hdoes t ht).footprint) ?_ _ (fun t ht => ⟨(hdoes t ht).run, ?_⟩) ?_
  · intro t t' ht ht' hne b c h1 h2
    exact hne (((grid_ids ht).2.2.2.trans (h1.2.symm.trans h2.2)).trans (grid_ids ht').2.2.2.symm)
  · obtain ⟨a1, a2, a3, a4⟩ := grid_ids (show t < output.width * output.height *
      (input.maps * input.samples) from ht)
    have hin := plane_inRange (t := output) (skid := t / (output.width * output.height)) a1 a2
      (by rw [hs, hmaps]; exact a3)
    have hlt' := hlt t ht
    rintro b c ⟨rfl | rfl, rfl⟩
    · have hv := hval _ _ _ _ hin
      rw [get_eq_at, huo.offset, plane_offset, hmaps] at hv
      show u.data[_]? = (output.data.set _ _)[_]?
      rw [hv, List.getElem?_set_self (by rw [ho]; exact hlt')]
      rfl
    · have hv := hmask _ _ _ _ hin
      rw [get_eq_at, hko.offset, plane_offset, hmaps] at hv
      show k.data[_]? = (mask.data.set _ _)[_]?
      rw [hv, List.getElem?_set_self (by rw [hm, hmo.elements]; exact hlt')]
      rfl
  · intro b c hno
    have hc : (b = .val 0 ∨ b = .idx 0) → output.elements ≤ c := by
      intro hb
      rcases Nat.lt_or_ge c output.elements with h | h
      · rw [hn] at h
        exact absurd ⟨hb, (grid_ids h).2.2.2⟩ (hno c h)
      · exact h
    match b, hc with
    | .val 0, hc =>
      have hc := hc (.inl rfl)
      show u.data[c]? = output.data[c]?
      rw [List.getElem?_eq_none (by rw [hu, huo.elements]; exact hc),
        List.getElem?_eq_none (by rw [ho]; exact hc)]
    | .idx 0, hc =>
      have hc := hc (.inr rfl)
      show k.data[c]? = mask.data[c]?
      rw [List.getElem?_eq_none (by rw [hk, hko.elements]; exact hc),
        List.getElem?_eq_none (by rw [hm, hmo.elements]; exact hc)]
    | .val (n + 1), _ => rfl
    | .idx (n + 1), _ => rfl

theorem advBackward_gives [CommRing R] {inputDelta outputDelta q : Tensor R} {mask : Tensor Nat}
    {rw rh sw sh : Nat} (hsw : 0 < sw) (hsh : 0 < sh)
    (hi : inputDelta.WF) (hm : mask.WF) (ho : outputDelta.WF) (hmo : Sh outputDelta mask)
    (hs : outputDelta.samples = inputDelta.samples) (hmaps : outputDelta.maps = inputDelta.maps)
    (hq : q.WF) (hiq : Sh inputDelta q) (px py : Nat → Nat → Nat → Nat → Nat)
    (hP : ∀ ox oy m s, outputDelta.InRange ox oy m s →
      mask.get ox oy m s = some (py ox oy m s * inputDelta.width + px ox oy m s) ∧
      px ox oy m s < inputDelta.width ∧
      (ox * sw ≤ px ox oy m s ∧ px ox oy m s < ox * sw + rw) ∧
      (oy * sh ≤ py ox oy m s ∧ py ox oy m s < oy * sh + rh))
    (hval : ∀ x y m s, inputDelta.InRange x y m s → q.get x y m s =
      some (∑ oy ∈ Finset.range outputDelta.height, ∑ ox ∈ Finset.range outputDelta.width,
        if px ox oy m s = x ∧ py ox oy m s = y then outputDelta.val ox oy m s else 0)) :
    (advBackward rw rh sw sh inputDelta outputDelta).Gives
      (memOf [inputDelta.data, outputDelta.data] [mask.data])
      (memOf [q.data, outputDelta.data] [mask.data]) := by
  refine gives_of_pixels (fun x y m s => ∑ oy ∈ Finset.range outputDelta.height,
      ∑ ox ∈ Finset.range outputDelta.width,
        if px ox oy m s = x ∧ py ox oy m s = y then outputDelta.val ox oy m s else 0) _ rfl hi
    hq hiq ?_ hval
  rintro x y skid ⟨i1, i2, i3, i4⟩
  unfold advBackwardItem
  simp only []
  generalize ha : (if x < rw then 0 else (x - rw) / sw + 1) = a
  generalize hb : min (x / sw + 1) outputDelta.width = b
  generalize hc : (if y < rh then 0 else (y - rh) / sh + 1) = c
  generalize hd : min (y / sh + 1) outputDelta.height = d
  let g : Nat → Nat → R := fun oy ox => if px ox oy (skid % inputDelta.maps) (skid / inputDelta.maps) = x ∧
    py ox oy (skid % inputDelta.maps) (skid / inputDelta.maps) = y then
      outputDelta.val ox oy (skid % inputDelta.maps) (skid / inputDelta.maps) else 0
  have hin : ∀ ox oy, ox < outputDelta.width → oy < outputDelta.height →
      outputDelta.InRange ox oy (skid % inputDelta.maps) (skid / inputDelta.maps) := by
    intro ox oy h1 h2
    exact ⟨h1, h2, by rw [hmaps]; exact i3, by rw [hs]; exact i4⟩
  have hwin : ∀ ox oy, ox < outputDelta.width → oy < outputDelta.height → g oy ox ≠ 0 →
      (a ≤ ox ∧ ox < b) ∧ (c ≤ oy ∧ oy < d) := by
    intro ox oy h1 h2 hne
    by_cases he : px ox oy (skid % inputDelta.maps) (skid / inputDelta.maps) = x ∧
        py ox oy (skid % inputDelta.maps) (skid / inputDelta.maps) = y
    · obtain ⟨_, _, ⟨p1, p2⟩, p3, p4⟩ := hP ox oy _ _ (hin ox oy h1 h2)
      have w1 := Props.window_bounds (i := x) (region := rw) hsw h1 (by omega) (by omega)
      have w2 := Props.window_bounds (i := y) (region := rh) hsh h2 (by omega) (by omega)
      unfold Pooling.advStart Pooling.advEnd at w1 w2
      rw [ha] at w1
      rw [hc] at w2
      omega
    · exact absurd (if_neg he) hne
  refine runs_store (g := fun sum => sum)
    (x := ∑ oy ∈ Finset.range outputDelta.height, ∑ ox ∈ Finset.range outputDelta.width, g oy ox) ?_ rfl rfl
  have hrow : ∀ oy, oy < outputDelta.height →
      ∑ ox ∈ Finset.Ico a b, g oy ox = ∑ ox ∈ Finset.range outputDelta.width, g oy ox := by
    intro oy hoy
    refine Finset.sum_subset (fun ox hox => ?_) fun ox hox hnot => ?_
    · rw [Finset.mem_Ico] at hox
      rw [Finset.mem_range]; omega
    · by_contra hne
      exact hnot (Finset.mem_Ico.2 (hwin ox oy (Finset.mem_range.1 hox) hoy hne).1)
  have hsum : ∑ oy ∈ Finset.Ico c d, ∑ ox ∈ Finset.Ico a b, g oy ox =
      ∑ oy ∈ Finset.range outputDelta.height, ∑ ox ∈ Finset.range outputDelta.width, g oy ox := by
    rw [← Finset.sum_congr rfl fun oy hoy => hrow oy (Finset.mem_range.1 hoy)]
    refine Finset.sum_subset (fun oy hoy => ?_) fun oy hoy hnot => ?_
    · rw [Finset.mem_Ico] at hoy
      rw [Finset.mem_range]; omega
    · refine Finset.sum_eq_zero fun ox hox => ?_
      rw [Finset.mem_Ico] at hox
      by_contra hne
      exact hnot (Finset.mem_Ico.2 (hwin ox oy (by omega) (Finset.mem_range.1 hoy) hne).2)
  rw [← hsum, Finset.sum_Ico_eq_sum_range]
  refine Evals.congr (Evals.loop (f := fun j sum => some (sum + ∑ ox ∈ Finset.Ico a b, g (c + j) ox))
    fun j sum hj => ?_) ((forLoop_sum (fun _ _ _ => rfl) 0).trans (by rw [zero_add]))
  rw [Finset.sum_Ico_eq_sum_range]
  refine Evals.congr (Evals.loop (f := fun i sum => some (sum + g (c + j) (a + i)))
    fun i sum hi => ?_) (forLoop_sum (fun _ _ _ => rfl) sum)
  have hr := hin (a + i) (c + j) (by omega) (by omega)
  obtain ⟨p1, p2, _⟩ := hP _ _ _ _ hr
  rw [get_eq_at, hmo.offset, ← hmaps, plane_offset] at p1
  have hl := (loadIdx1 (t0 := inputDelta) (vals := [outputDelta.data]) (idxs := [mask.data]) 0 _).congr p1
  have hv := get_eq_val ho hr
  rw [get_eq_at, ← hmaps, plane_offset] at hv
  refine Evals.congr (Evals.bind hl (g := fun kk => some (sum + if kk = y * inputDelta.width + x then
    outputDelta.val (a + i) (c + j) (skid % inputDelta.maps) (skid / inputDelta.maps) else 0))
    fun kk hkk => ?_) ?_
  · split
    · refine Evals.congr (Evals.map (load1_some (d := outputDelta.data) rfl hv) _) ?_
      rw [hmaps]; rfl
    · exact Evals.congr (Evals.ret sum) (by rw [add_zero])
  · rw [Option.bind_some]
    congr 2
    simp only [g]
    refine if_congr ?_ rfl rfl
    rw [hmaps]
    constructor
    · intro he
      have := radix_inj p2 i1 he
      exact ⟨this.2, this.1⟩
    · rintro ⟨rfl, rfl⟩; rfl

/-! ### src/net/ActivationFunctions.cpp -/

theorem activationForward_gives (f : R → R) {input output u : Tensor R} (h : Activations.elementwise input.elements
      (fun e => (rd input.data e).map f) output = some u) :
    (activationForward f input).Gives (memOf [output.data, input.data] []) (memOf [u.data, input.data] []) :=
  map_schedule input.elements f input output u h

theorem activationBackward_gives (f : R → R → R) {input outputs delta t u : Tensor R}
    (h : Activations.elementwise input.elements (fun e => (rd outputs.data e).bind fun y =>
      (rd delta.data e).map fun dy => f y dy) t = some u) :
    (activationBackward f input).Gives (memOf [t.data, outputs.data, delta.data] [])
      (memOf [u.data, outputs.data, delta.data] []) :=
  map2_schedule input.elements f outputs delta t u h

end CN24.DeviceKernels
