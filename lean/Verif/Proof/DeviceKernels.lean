import Verif.Model.DeviceKernels
import Verif.Proof.Parallel
import Verif.Proof.Adjoint
import Verif.Proof.Pooling

namespace CN24.DeviceKernels
open CN24 CN24.Parallel CN24.Tensor
variable {R : Type}

/-! ### Launches whose work items write one element each -/

theorem putElem_of_lt {t : Tensor R} {i : Nat} (v : R) (h : i < t.data.length) :
    t.putElem i v = some { t with data := t.data.set i v } := by
  unfold putElem
  rw [wr_of_lt h]; rfl

theorem forLoop_stores {n : Nat} (t0 : Tensor R) (pos : Nat → Nat) (v : Nat → R)
    (hlt : ∀ i, i < n → pos i < t0.data.length)
    (hinj : ∀ i j, i < n → j < n → pos i = pos j → i = j) :
    ∃ u, forLoop n (fun i t => t.putElem (pos i) (v i)) t0 = some u ∧ Sh t0 u ∧
      u.data.length = t0.data.length ∧ (∀ i, i < n → u.data[pos i]? = some (v i)) ∧
      ∀ k, (∀ i, i < n → pos i ≠ k) → u.data[k]? = t0.data[k]? := by
  induction n with
  | zero => exact ⟨t0, rfl, Sh.rfl' t0, rfl, by simp, by simp⟩
  | succ n ih =>
    obtain ⟨u, h1, h2, h3, h4, h5⟩ := ih (fun i hi => hlt i (by omega))
      (fun i j hi hj => hinj i j (by omega) (by omega))
    have hn : pos n < u.data.length := by rw [h3]; exact hlt n (by omega)
    refine ⟨{ u with data := u.data.set (pos n) (v n) }, ?_, h2, ?_, ?_, ?_⟩
    · rw [forLoop_succ, h1, Option.bind_some, putElem_of_lt _ hn]
    · simp [h3]
    · intro i hi
      by_cases hin : i = n
      · subst hin; simp [hn]
      · have hne : pos n ≠ pos i := fun e => hin (hinj i n hi (by omega) e.symm)
        simp only [List.getElem?_set_ne hne]
        exact h4 i (by omega)
    · intro k hk
      simp only [List.getElem?_set_ne (hk n (by omega))]
      exact h5 k fun i hi => hk i (by omega)

/-- The element that work item `i` writes. -/
@[reducible] def at0 (p : Nat) (b : Buf) (k : Nat) : Prop := b = .val 0 ∧ k = p

theorem gives_of_stores {l : Launch R} {t0 : Tensor R} {vals : List (List R)} {idxs : List (List Nat)}
    (pos : Nat → Nat) (v : Nat → R)
    (hP : ∀ i, i < l.items → Runs (frame1 t0 vals idxs) (at0 (pos i)) (l.item i)
      fun t => t.putElem (pos i) (v i))
    (hlt : ∀ i, i < l.items → pos i < t0.data.length)
    (hinj : ∀ i j, i < l.items → j < l.items → pos i = pos j → i = j) (d : List R)
    (hd : d.length = t0.data.length) (hval : ∀ i, i < l.items → d[pos i]? = some (v i))
    (hrest : ∀ k, (∀ i, i < l.items → pos i ≠ k) → d[k]? = t0.data[k]?) :
    l.Gives (memOf (t0.data :: vals) idxs) (memOf (d :: vals) idxs) := by
  obtain ⟨u, h1, _, h3, h4, h5⟩ := forLoop_stores t0 pos v hlt hinj
  have hu : u.data = d := by
    refine List.ext_getElem? fun k => ?_
    by_cases hk : ∃ i, i < l.items ∧ pos i = k
    · obtain ⟨i, hi, rfl⟩ := hk
      rw [h4 i hi, hval i hi]
    · have hk' : ∀ i, i < l.items → pos i ≠ k := fun i hi e => hk ⟨i, hi, e⟩
      rw [h5 k hk', hrest k hk']
  rw [← hu]
  exact everySchedule_of_runs (frame1 t0 vals idxs) (W := fun i => at0 (pos i)) hP
    (fun i j hi hj hij b k a c => hij (hinj i j hi hj (a.2.symm.trans c.2))) (Sh.rfl' t0) rfl h1

/-- The same when work item `i` writes element `i` of the whole buffer. -/
theorem gives_of_all {l : Launch R} {t0 : Tensor R} {vals : List (List R)} {idxs : List (List Nat)}
    (v : Nat → R) (hn : l.items = t0.data.length)
    (hP : ∀ i, i < l.items → Runs (frame1 t0 vals idxs) (at0 i) (l.item i)
      fun t => t.putElem i (v i))
    (d : List R) (hd : d.length = t0.data.length) (hval : ∀ i, i < l.items → d[i]? = some (v i)) :
    l.Gives (memOf (t0.data :: vals) idxs) (memOf (d :: vals) idxs) := by
  refine gives_of_stores (fun i => i) v hP (fun i hi => by omega) (fun i j _ _ h => h) d hd hval ?_
  intro k hk
  have hk' : t0.data.length ≤ k := by
    rcases Nat.lt_or_ge k t0.data.length with h | h
    · exact absurd rfl (hk k (by omega))
    · exact h
  rw [List.getElem?_eq_none (by omega), List.getElem?_eq_none (by omega)]

section
variable {t0 : Tensor R} {vals : List (List R)} {idxs : List (List Nat)}

theorem runs_store {p : Nat} {β : Type} {q : Prog (Cell R) β} {x : β} {g : β → R} {v : R} {i : Nat}
    (hq : Evals (frame1 t0 vals idxs) q (some x)) (hi : i = p) (hv : g x = v) :
    Runs (frame1 t0 vals idxs) (at0 p) (q.bind fun b => store 0 i (g b)) fun t => t.putElem p v := by
  subst hi hv
  exact Runs.congr (Runs.eval hq fun b _ => store1 (g b) ⟨rfl, rfl⟩) fun _ _ => rfl

theorem runs_store' {p : Nat} {v : R} {i : Nat} (hi : i = p) :
    Runs (frame1 t0 vals idxs) (at0 p) (store 0 i v) fun t => t.putElem p v := by
  subst hi
  exact store1 v ⟨rfl, rfl⟩

theorem load1_some {k i : Nat} {d : List R} {v : R} (hd : vals.getD k [] = d) (h : d[i]? = some v) :
    Evals (frame1 t0 vals idxs) (load (k + 1) i) (some v) :=
  (load1 k i).congr (by rw [hd]; exact h)

end

/-! ### Grids -/

theorem grid_ids {n0 n1 n2 i : Nat} (h : i < n0 * n1 * n2) :
    i % n0 < n0 ∧ i / n0 % n1 < n1 ∧ i / (n0 * n1) < n2 ∧
      i = n0 * n1 * (i / (n0 * n1)) + n0 * (i / n0 % n1) + i % n0 := by
  have h0 : 0 < n0 := Nat.pos_of_ne_zero fun e => by simp [e] at h
  have h1 : 0 < n1 := Nat.pos_of_ne_zero fun e => by simp [e] at h
  refine ⟨Nat.mod_lt _ h0, Nat.mod_lt _ h1, Nat.div_lt_of_lt_mul h, ?_⟩
  have e1 := Nat.div_add_mod i n0
  have e2 := Nat.div_add_mod (i / n0) n1
  rw [Nat.div_div_eq_div_mul] at e2
  have : n0 * n1 * (i / (n0 * n1)) + n0 * (i / n0 % n1) = n0 * (i / n0) := by
    rw [Nat.mul_assoc, ← Nat.mul_add, e2]
  omega

/-- Element `x`, `y` of the plane with number `skid`. -/
theorem plane_offset (t : Tensor R) (x y skid : Nat) :
    t.offset x y (skid % t.maps) (skid / t.maps) = t.width * t.height * skid + t.width * y + x := by
  rw [offset_eq]
  have : skid / t.maps * t.maps + skid % t.maps = skid := by
    rw [Nat.mul_comm]; exact Nat.div_add_mod _ _
  rw [this]
  ring

theorem plane_inRange {t : Tensor R} {x y skid : Nat} (hx : x < t.width) (hy : y < t.height)
    (hk : skid < t.maps * t.samples) : t.InRange x y (skid % t.maps) (skid / t.maps) := by
  have h0 : 0 < t.maps := Nat.pos_of_ne_zero fun e => by simp [e] at hk
  exact ⟨hx, hy, Nat.mod_lt _ h0, Nat.div_lt_of_lt_mul hk⟩

theorem get_eq_at (t : Tensor R) (x y m s : Nat) : t.get x y m s = t.data[t.offset x y m s]? := rfl

/-- A launch with one work item per pixel of the tensor it writes. -/
theorem gives_of_pixels {k : Nat → Nat → Nat → Prog (Cell R) Unit} {t0 u : Tensor R}
    {vals : List (List R)} {idxs : List (List Nat)} (v : Nat → Nat → Nat → Nat → R) (n2 : Nat)
    (hn : n2 = t0.maps * t0.samples) (hw : t0.WF) (hu : u.WF) (hsh : Sh t0 u)
    (hP : ∀ x y skid, t0.InRange x y (skid % t0.maps) (skid / t0.maps) →
      Runs (frame1 t0 vals idxs) (at0 (t0.width * t0.height * skid + t0.width * y + x)) (k x y skid)
        fun t => t.putElem (t0.width * t0.height * skid + t0.width * y + x)
          (v x y (skid % t0.maps) (skid / t0.maps)))
    (hval : ∀ x y m s, t0.InRange x y m s → u.get x y m s = some (v x y m s)) :
    (Launch.grid t0.width t0.height n2 k).Gives (memOf (t0.data :: vals) idxs)
      (memOf (u.data :: vals) idxs) := by
  subst hn
  refine gives_of_all (l := Launch.grid t0.width t0.height (t0.maps * t0.samples) k)
    (fun i => v (i % t0.width) (i / t0.width % t0.height) (i / (t0.width * t0.height) % t0.maps)
      (i / (t0.width * t0.height) / t0.maps)) ?_ ?_ u.data ?_ ?_
  · rw [hw]; simp only [Launch.grid, elements]; ring
  · intro i hi
    obtain ⟨a1, a2, a3, a4⟩ := grid_ids hi
    have := hP _ _ _ (plane_inRange a1 a2 a3)
    rw [← a4] at this
    exact this
  · rw [hw, hu, hsh.elements]
  · intro i hi
    obtain ⟨a1, a2, a3, a4⟩ := grid_ids hi
    have := hval _ _ _ _ (plane_inRange a1 a2 a3)
    rw [get_eq_at, hsh.offset, plane_offset, ← a4] at this
    exact this

/-! ### src/math/TensorMath.cpp -/

theorem setSample_all_gives (A : Tensor R) (hA : A.WF) (value : R) :
    (setSample A none value).Gives (memOf [A.data] []) (memOf [List.replicate A.data.length value] []) := by
  refine gives_of_all (l := setSample A none value) (fun _ => value) hA.symm (fun i _ => ?_) _
    (by simp) ?_
  · exact runs_store' (by simp)
  · intro i hi
    have : i < A.data.length := by rw [hA]; exact hi
    simp [this]

section
variable [CommRing R]

theorem sms_gives {source target : Tensor R} (hs : source.WF) (ht : target.WF)
    (hw : source.width = target.width) (hh : source.height = target.height)
    (h1 : source.samples = target.maps) (h2 : source.maps = target.samples) {u : Tensor R}
    (hu : TensorMath.sms source target = some u) :
    (sms target).Gives (memOf [target.data, source.data] []) (memOf [u.data, source.data] []) := by
  obtain ⟨u', g1, g2, g3, g4⟩ := TensorMath.sms_spec hs ht hw hh h1 h2
  obtain rfl := Option.some.inj (hu.symm.trans g1)
  refine gives_of_all (l := sms target) (fun i => u.data.getD i 0) ht.symm ?_ u.data
    (by rw [g3, ht, g2.elements]) ?_
  · intro i hi
    obtain ⟨x, y, m, s, hin, rfl⟩ := offset_surj target hi
    have hin' : source.InRange x y s m := by
      obtain ⟨a, b, c, d⟩ := hin
      exact ⟨by omega, by omega, by omega, by omega⟩
    have hval := g4 x y m s hin
    rw [get_eq_val hs hin'] at hval
    obtain ⟨b1, b2, b3, b4⟩ := hin
    have hwh : y * target.width + x < target.width * target.height := by
      rw [Nat.mul_comm target.width]; exact radix_lt b2 b1
    have e0 : target.offset x y m s = (s * target.maps + m) * (target.width * target.height) +
        (y * target.width + x) := by rw [offset_eq]; ring
    have e1 : target.offset x y m s / (target.width * target.height) = s * target.maps + m := by
      rw [e0, Nat.add_comm, Nat.add_mul_div_right _ _ (by omega), Nat.div_eq_of_lt hwh, Nat.zero_add]
    have e2 : target.offset x y m s % (target.width * target.height) = y * target.width + x := by
      rw [e0, Nat.add_comm, Nat.add_mul_mod_self_right, Nat.mod_eq_of_lt hwh]
    have e3 : (s * target.maps + m) / target.maps = s := by
      rw [Nat.add_comm, Nat.add_mul_div_right _ _ (by omega), Nat.div_eq_of_lt b3, Nat.zero_add]
    have e4 : (s * target.maps + m) % target.maps = m := by
      rw [Nat.add_comm, Nat.add_mul_mod_self_right, Nat.mod_eq_of_lt b3]
    have hv : u.data.getD (target.offset x y m s) 0 = source.val x y s m := by
      rw [← val_of_get hval]; unfold val; rw [g2.offset]
    simp only [sms, smsItem, e1, e2, e3, e4]
    refine runs_store (g := fun v => v) (load1_some (d := source.data) (v := source.val x y s m) rfl ?_)
      rfl hv.symm
    have := get_eq_val hs hin'
    rw [get_eq_at, offset_eq, h2, hw, hh] at this
    rw [← this]
    congr 1
    ring
  · intro i hi
    have : i < u.data.length := by rw [g3, g2.elements]; exact hi
    simp [this]

theorem down_gives {source target : Tensor R} {rw rh : Nat} {factor : R} (hs : source.WF)
    (ht : target.WF) (hw : source.width = rw * target.width)
    (hh : source.height = rh * target.height) (hm : source.maps = target.maps)
    (hsm : source.samples = target.samples) {u : Tensor R}
    (hu : TensorMath.down source target rw rh factor = some u) :
    (down source target rw rh factor).Gives (memOf [target.data, source.data] [])
      (memOf [u.data, source.data] []) := by
  obtain ⟨u', g1, g2, g3, g4⟩ := TensorMath.down_spec (factor := factor) hs ht hw hh hm hsm
  obtain rfl := Option.some.inj (hu.symm.trans g1)
  refine gives_of_pixels (u := u) _ _ rfl ht g3 g2 ?_ g4
  rintro x y skid ⟨b1, b2, b3, b4⟩
  refine runs_store (g := fun sum => sum * factor) (Evals.congr (Evals.loop (f := fun ry =>
    forLoop rw fun rx sum => some (sum + source.val (rw * x + rx) (rh * y + ry) (skid % target.maps)
      (skid / target.maps))) fun ry sum hry => Evals.loop fun rx sum hrx => ?_)
    (forLoop_sum (fun ry sum hry => forLoop_sum (fun rx sum hrx => rfl) sum) 0)) rfl (by rw [zero_add])
  refine Evals.congr (Evals.map (load1_some (d := source.data)
    (v := source.val (rw * x + rx) (rh * y + ry) (skid % target.maps) (skid / target.maps)) rfl ?_) _) rfl
  have i1 := radix_lt b1 hrx
  have i2 := radix_lt b2 hry
  rw [Nat.mul_comm target.width, Nat.mul_comm x] at i1
  rw [Nat.mul_comm target.height, Nat.mul_comm y] at i2
  have := get_eq_val hs (x := rw * x + rx) (y := rh * y + ry) (m := skid % target.maps)
    (s := skid / target.maps) ⟨by omega, by omega, by omega, by omega⟩
  rw [get_eq_at, ← hm, plane_offset] at this
  rw [← hm, ← this]
  congr 1
  ring

theorem up_gives {source target : Tensor R} {rw rh : Nat} {factor : R} (hs : source.WF)
    (ht : target.WF) (hw : target.width = rw * source.width)
    (hh : target.height = rh * source.height) (hm : target.maps = source.maps)
    (hsm : target.samples = source.samples) {u : Tensor R}
    (hu : TensorMath.up source target rw rh factor = some u) :
    (up source target rw rh factor).Gives (memOf [target.data, source.data] [])
      (memOf [u.data, source.data] []) := by
  obtain ⟨u', g1, g2, g3, g4⟩ := TensorMath.up_spec (factor := factor) hs ht hw hh hm hsm
  obtain rfl := Option.some.inj (hu.symm.trans g1)
  have hin : ∀ {x y m s}, target.InRange x y m s →
      0 < rw ∧ 0 < rh ∧ source.InRange (x / rw) (y / rh) m s := by
    rintro x y m s ⟨b1, b2, b3, b4⟩
    have h0 : 0 < rw := Nat.pos_of_ne_zero fun e => by rw [hw, e] at b1; simp at b1
    have h1 : 0 < rh := Nat.pos_of_ne_zero fun e => by rw [hh, e] at b2; simp at b2
    exact ⟨h0, h1, Nat.div_lt_of_lt_mul (by omega), Nat.div_lt_of_lt_mul (by omega), by omega, by omega⟩
  refine gives_of_pixels (u := u) (fun x y m s => source.val (x / rw) (y / rh) m s * factor) _ rfl ht g3
    g2 ?_ ?_
  · intro x y skid hx
    obtain ⟨h0, h1, h2⟩ := hin hx
    refine runs_store (g := fun v => v * factor) (load1_some (d := source.data) rfl ?_) rfl rfl
    have := get_eq_val hs h2
    rw [get_eq_at, hm, plane_offset] at this
    rw [hm]
    exact this
  · intro x y m s hx
    obtain ⟨h0, h1, h2⟩ := hin hx
    have := g4 _ _ _ _ (x % rw) (y % rh) h2 (Nat.mod_lt _ h0) (Nat.mod_lt _ h1)
    rw [Nat.div_add_mod, Nat.div_add_mod] at this
    exact this

theorem grid_of {n0 n1 o m s : Nat} (ho : o < n0) (hm : m < n1) :
    ((s * n1 + m) * n0 + o) % n0 = o ∧ ((s * n1 + m) * n0 + o) / n0 % n1 = m ∧
      ((s * n1 + m) * n0 + o) / (n0 * n1) = s := by
  have e1 : ((s * n1 + m) * n0 + o) / n0 = s * n1 + m := by
    rw [Nat.add_comm, Nat.add_mul_div_right _ _ (by omega), Nat.div_eq_of_lt ho, Nat.zero_add]
  refine ⟨?_, ?_, ?_⟩
  · rw [Nat.add_comm, Nat.add_mul_mod_self_right, Nat.mod_eq_of_lt ho]
  · rw [e1, Nat.add_comm, Nat.add_mul_mod_self_right, Nat.mod_eq_of_lt hm]
  · rw [← Nat.div_div_eq_div_mul, e1, Nat.add_comm, Nat.add_mul_div_right _ _ (by omega),
      Nat.div_eq_of_lt hm, Nat.zero_add]

theorem grid_lt {n0 n1 n2 o m s : Nat} (ho : o < n0) (hm : m < n1) (hs : s < n2) :
    (s * n1 + m) * n0 + o < n0 * n1 * n2 := by
  have := radix_lt (radix_lt hs hm) ho
  have e : n2 * n1 * n0 = n0 * n1 * n2 := by ring
  omega

theorem im2col_gives {c : TensorMath.ColShape} {source target : Tensor R} (hsw : 0 < c.strideWidth)
    (hsh : 0 < c.strideHeight) (hs : c.FitsSource source) (ht : c.FitsTarget target) {u : Tensor R}
    (hu : TensorMath.im2col c source target = .done u) :
    (im2col (R := R) c).Gives (memOf [target.data, source.data] []) (memOf [u.data, source.data] []) := by
  obtain ⟨u', g1, g2, g3, g4⟩ := TensorMath.im2col_spec hsw hsh hs ht
  have huu : u = u' := by rw [hu] at g1; exact Outcome.done.inj g1
  subst huu
  have etw : c.targetWidth.toNat = target.width := by have := ht.2.2.2.1; omega
  have eth : c.targetHeight.toNat = target.height := by have := ht.2.2.2.2; omega
  have etm := ht.2.1
  have esm := ht.2.2.1
  -- the coordinates of the element that a work item writes
  have hids : ∀ i, i < (im2col (R := R) c).items →
      target.InRange (i % (target.width * target.height) % target.width)
        (i % (target.width * target.height) / target.width)
        (i / (target.width * target.height * c.targetMaps))
        (i / (target.width * target.height) % c.targetMaps) := by
    intro i hi
    simp only [im2col, Launch.grid, etw, eth] at hi
    obtain ⟨a1, a2, a3, a4⟩ := grid_ids hi
    have hw0 : 0 < target.width := Nat.pos_of_ne_zero fun e => by simp [e] at hi
    exact ⟨Nat.mod_lt _ hw0, Nat.div_lt_of_lt_mul a1, by omega, by omega⟩
  refine gives_of_stores (l := im2col (R := R) c)
    (fun i => target.offset (i % (target.width * target.height) % target.width)
        (i % (target.width * target.height) / target.width)
        (i / (target.width * target.height * c.targetMaps))
        (i / (target.width * target.height) % c.targetMaps))
    (fun i => u.val (i % (target.width * target.height) % target.width)
        (i % (target.width * target.height) / target.width)
        (i / (target.width * target.height * c.targetMaps))
        (i / (target.width * target.height) % c.targetMaps)) ?_ ?_ ?_ u.data
    (by rw [g3, ht.1, g2.elements]) ?_ ?_
  · intro i hi
    obtain ⟨b1, b2, b3, b4⟩ := hids i hi
    simp only [im2col, Launch.grid, etw, eth, im2colItem]
    generalize i % (target.width * target.height) % target.width = ox at *
    generalize i % (target.width * target.height) / target.width = oy at *
    generalize i / (target.width * target.height * c.targetMaps) = sample at *
    generalize i / (target.width * target.height) % c.targetMaps = tm at *
    have hval := val_of_get (g4 ox oy sample tm b1 b2 (by omega) (by omega))
    have hpos : tm * c.samples * target.width * target.height +
        (sample * target.height + oy) * target.width + ox = target.offset ox oy sample tm := by
      rw [offset_eq, esm]; ring
    have him := TensorMath.imap_lt (c := c) (tm := tm) (by omega)
    unfold TensorMath.padded at hval
    rw [hs.2.1, hs.2.2.1] at hval
    simp only [TensorMath.ColShape.ix, TensorMath.ColShape.iy] at hval
    split
    · rename_i hc
      replace hval := hval.trans (if_pos ⟨⟨hc.2.2.1, hc.2.2.2.1⟩, hc.1, hc.2.1⟩)
      refine runs_store (g := fun v => v) (load1_some (d := source.data) rfl ?_) hpos hval.symm
      have hin : source.InRange
          ((ox : Int) * c.strideWidth - c.padWidth + ((tm % c.kernelWidth : Nat) : Int)).toNat
          ((oy : Int) * c.strideHeight - c.padHeight +
            ((tm / c.kernelWidth % c.kernelHeight : Nat) : Int)).toNat (c.imap tm) sample := by
        obtain ⟨_, d1, d2, d3, d4⟩ := hs
        obtain ⟨c1, c2, c3, c4, c5, c6⟩ := hc
        exact ⟨by omega, by omega, by omega, by omega⟩
      have := get_eq_val hs.1 hin
      rw [get_eq_at, offset_eq, hs.2.1, hs.2.2.1, hs.2.2.2.1] at this
      rw [← this]
      unfold TensorMath.ColShape.imap
      congr 1
      ring
    · rename_i hc
      replace hval := hval.trans (if_neg (by
        rintro ⟨⟨c1, c2⟩, c3, c4⟩
        exact hc ⟨c3, c4, c1, c2, him, by omega⟩))
      rw [hval]
      exact runs_store' hpos
  · intro i hi
    rw [ht.1]
    exact offset_lt _ (hids i hi)
  · intro i j hi hj he
    obtain ⟨e1, e2, e3, e4⟩ := offset_inj target (hids i hi) (hids j hj) he
    simp only [im2col, Launch.grid, etw, eth] at hi hj
    obtain ⟨_, _, _, a4⟩ := grid_ids hi
    obtain ⟨_, _, _, b4⟩ := grid_ids hj
    have e5 : i % (target.width * target.height) = j % (target.width * target.height) := by
      rw [← Nat.div_add_mod (i % (target.width * target.height)) target.width, e1, e2, Nat.div_add_mod]
    rw [a4, b4, e3, e4, e5]
  · intro i hi
    have := get_eq_val g3 (g2.inRange.2 (hids i hi))
    rw [get_eq_at, g2.offset] at this
    exact this
  · intro k hk
    rcases Nat.lt_or_ge k target.data.length with h | h
    · exfalso
      rw [ht.1] at h
      obtain ⟨ox, oy, sample, tm, ⟨b1, b2, b3, b4⟩, rfl⟩ := offset_surj target h
      have ho : oy * target.width + ox < target.width * target.height := by
        rw [Nat.mul_comm target.width]; exact radix_lt b2 b1
      obtain ⟨f1, f2, f3⟩ := grid_of (s := sample) ho (show tm < c.targetMaps by omega)
      refine hk ((sample * c.targetMaps + tm) * (target.width * target.height) +
        (oy * target.width + ox)) ?_ ?_
      · simp only [im2col, Launch.grid, etw, eth]
        exact grid_lt ho (by omega) (by omega)
      · rw [f1, f2, f3]
        congr 1
        · rw [Nat.add_comm, Nat.add_mul_mod_self_right, Nat.mod_eq_of_lt b1]
        · rw [Nat.add_comm, Nat.add_mul_div_right _ _ (by omega), Nat.div_eq_of_lt b1, Nat.zero_add]
    · rw [List.getElem?_eq_none (by rw [g3, g2.elements, ← ht.1]; exact h), List.getElem?_eq_none h]

omit [CommRing R] in
/-- A tensor of the shape of `t0` with the given values. -/
def tabulate (t0 : Tensor R) (v : Nat → Nat → Nat → Nat → R) : Tensor R :=
  { t0 with
    data := (List.range t0.elements).map (fun i =>
      v (i % t0.width) (i / t0.width % t0.height) (i / (t0.width * t0.height) % t0.maps) (i / (t0.width * t0.height) / t0.maps)) }

omit [CommRing R] in
theorem exists_tensor (t0 : Tensor R) (v : Nat → Nat → Nat → Nat → R) :
    ∃ u : Tensor R, Sh t0 u ∧ u.WF ∧ ∀ x y m s, t0.InRange x y m s → u.get x y m s = some (v x y m s) := by
  refine ⟨tabulate t0 v, ⟨rfl, rfl, rfl, rfl⟩, ?_, ?_⟩
  · simp [WF, elements, tabulate]
  · intro x y m s h
    have hlt := offset_lt t0 h
    obtain ⟨h1, h2, h3, h4⟩ := h
    obtain ⟨e1, e2, e3⟩ := grid_of (s := s * t0.maps + m) h1 h2
    rw [get_eq_at]
    have ho : (tabulate t0 v).offset x y m s =
        ((s * t0.maps + m) * t0.height + y) * t0.width + x := offset_eq t0 x y m s
    rw [ho]
    rw [offset_eq] at hlt
    simp only [tabulate]
    rw [List.getElem?_map, List.getElem?_range hlt, Option.map_some, e1, e2, e3]
    congr 2
    · rw [Nat.add_comm, Nat.add_mul_mod_self_right, Nat.mod_eq_of_lt h3]
    · rw [Nat.add_comm, Nat.add_mul_div_right _ _ (by omega), Nat.div_eq_of_lt h3, Nat.zero_add]

/-- The only multiple of the stride that the kernel looks for. -/
theorem pick {s : Nat} (hs : 0 < s) (D : Int) (n : Nat) (f : Nat → R) :
    (if 0 ≤ D.tdiv s ∧ D.tdiv s < n ∧ D.tmod s = 0 then f (D.tdiv s).toNat else 0) =
      ∑ o ∈ Finset.range n, if ((o * s : Nat) : Int) = D then f o else 0 := by
  have hs' : (s : Int) ≠ 0 := by omega
  by_cases h : 0 ≤ D.tdiv s ∧ D.tdiv s < n ∧ D.tmod s = 0
  · obtain ⟨h1, h2, h3⟩ := h
    have hD : D = (((D.tdiv s).toNat * s : Nat) : Int) := by
      have := Int.mul_tdiv_add_tmod D s
      rw [h3, Int.add_zero, Int.mul_comm] at this
      push_cast
      rw [Int.toNat_of_nonneg h1]
      exact this.symm
    rw [if_pos ⟨h1, h2, h3⟩, Finset.sum_eq_single (D.tdiv s).toNat]
    · rw [if_pos hD.symm]
    · intro o _ ho
      rw [if_neg]
      intro e
      rw [hD] at e
      exact ho (Nat.eq_of_mul_eq_mul_right hs (by exact_mod_cast e))
    · intro hn
      exact absurd (Finset.mem_range.2 (by omega)) hn
  · rw [if_neg h, Finset.sum_eq_zero]
    intro o ho
    rw [if_neg]
    rintro rfl
    refine h ⟨?_, ?_, ?_⟩ <;> push_cast
    · rw [Int.mul_tdiv_cancel _ hs']; omega
    · rw [Int.mul_tdiv_cancel _ hs']; have := Finset.mem_range.1 ho; omega
    · exact Int.mul_tmod_left _ _

/-- The entries of the column tensor that pixel `x`, `y` was copied to. -/
def gathered (c : TensorMath.ColShape) (cols : Tensor R) (x y m s : Nat) : R :=
  ∑ ky ∈ Finset.range c.kernelHeight, ∑ oy ∈ Finset.range cols.height,
    ∑ kx ∈ Finset.range c.kernelWidth, ∑ ox ∈ Finset.range cols.width,
      if oy * c.strideHeight + ky = y + c.padHeight ∧ ox * c.strideWidth + kx = x + c.padWidth then
        cols.val ox oy s ((m * c.kernelHeight + ky) * c.kernelWidth + kx)
      else 0

theorem col2im_gives {c : TensorMath.ColShape} {g cols q : Tensor R} (hsw : 0 < c.strideWidth)
    (hsh : 0 < c.strideHeight) (hs : c.FitsSource g) (ht : c.FitsTarget cols) (hq : q.WF) (hgq : Sh g q)
    (hval : ∀ x y m s, g.InRange x y m s → q.get x y m s = some (gathered c cols x y m s)) :
    (col2im (R := R) c).Gives (memOf [g.data, cols.data] []) (memOf [q.data, cols.data] []) := by
  have etw : c.targetWidth.toNat = cols.width := by have := ht.2.2.2.1; omega
  have eth : c.targetHeight.toNat = cols.height := by have := ht.2.2.2.2; omega
  obtain ⟨hg, s1, s2, s3, s4⟩ := hs
  refine gives_of_all (l := col2im (R := R) c) (fun i => q.data.getD i 0) ?_ ?_ q.data
    (by rw [hq, hg, hgq.elements]) ?_
  · rw [hg]; simp only [col2im, Launch.grid, elements, s1, s2, s3, s4]; ring
  · intro i hi
    obtain ⟨a1, a2, a3, a4⟩ := grid_ids hi
    simp only [col2im, Launch.grid]
    generalize i % (c.sourceWidth * c.sourceHeight) = oe at *
    generalize i / (c.sourceWidth * c.sourceHeight) % c.maps = map at *
    generalize i / (c.sourceWidth * c.sourceHeight * c.maps) = sample at *
    have hw0 : 0 < c.sourceWidth := Nat.pos_of_ne_zero fun e => by simp [e] at a1
    have hx : oe % c.sourceWidth < c.sourceWidth := Nat.mod_lt _ hw0
    have hy : oe / c.sourceWidth < c.sourceHeight := Nat.div_lt_of_lt_mul a1
    have hin : g.InRange (oe % c.sourceWidth) (oe / c.sourceWidth) map sample :=
      ⟨by omega, by omega, by omega, by omega⟩
    have hoff : g.offset (oe % c.sourceWidth) (oe / c.sourceWidth) map sample = i := by
      rw [offset_eq, s1, s2, s3, a4]
      have := Nat.div_add_mod oe c.sourceWidth
      calc _ = (sample * c.maps + map) * (c.sourceWidth * c.sourceHeight) +
            (c.sourceWidth * (oe / c.sourceWidth) + oe % c.sourceWidth) := by ring
        _ = _ := by rw [this]; ring
    have hv := hval _ _ _ _ hin
    rw [get_eq_at, hgq.offset, hoff] at hv
    have hvd : q.data.getD i 0 = gathered c cols (oe % c.sourceWidth) (oe / c.sourceWidth) map sample := by
      rw [List.getD_eq_getElem?_getD, hv]; rfl
    rw [hvd]
    simp only [col2imItem, etw, eth]
    refine runs_store (g := fun sum => sum) (x := gathered c cols (oe % c.sourceWidth)
      (oe / c.sourceWidth) map sample) ?_ ?_ rfl
    · -- the sum over the rows of the kernel
      refine Evals.congr (Evals.loop (f := fun ky sum => some (sum +
        ∑ oy ∈ Finset.range cols.height, ∑ kx ∈ Finset.range c.kernelWidth,
          ∑ ox ∈ Finset.range cols.width,
          if oy * c.strideHeight + ky = oe / c.sourceWidth + c.padHeight ∧
              ox * c.strideWidth + kx = oe % c.sourceWidth + c.padWidth then
            cols.val ox oy sample ((map * c.kernelHeight + ky) * c.kernelWidth + kx) else 0))
        fun ky sum hky => ?_) ((forLoop_sum (fun ky sum _ => rfl) 0).trans (by rw [zero_add]; rfl))
      -- the row of outputs
      have hrow : ∀ F : Nat → R, (if 0 ≤ ((c.padHeight : Int) + (oe / c.sourceWidth : Nat) - ky).tdiv
          c.strideHeight ∧ ((c.padHeight : Int) + (oe / c.sourceWidth : Nat) - ky).tdiv c.strideHeight <
          cols.height ∧ ((c.padHeight : Int) + (oe / c.sourceWidth : Nat) - ky).tmod c.strideHeight = 0 then
          F (((c.padHeight : Int) + (oe / c.sourceWidth : Nat) - ky).tdiv c.strideHeight).toNat else 0) =
          ∑ oy ∈ Finset.range cols.height,
            if oy * c.strideHeight + ky = oe / c.sourceWidth + c.padHeight then F oy else 0 := by
        intro F
        rw [pick hsh]
        refine Finset.sum_congr rfl fun oy _ => if_congr ?_ rfl rfl
        omega
      have hcol : ∀ (kx : Nat) (F : Nat → R), (if 0 ≤ ((c.padWidth : Int) + (oe % c.sourceWidth : Nat) - kx).tdiv
          c.strideWidth ∧ ((c.padWidth : Int) + (oe % c.sourceWidth : Nat) - kx).tdiv c.strideWidth <
          cols.width ∧ ((c.padWidth : Int) + (oe % c.sourceWidth : Nat) - kx).tmod c.strideWidth = 0 then
          F (((c.padWidth : Int) + (oe % c.sourceWidth : Nat) - kx).tdiv c.strideWidth).toNat else 0) =
          ∑ ox ∈ Finset.range cols.width,
            if ox * c.strideWidth + kx = oe % c.sourceWidth + c.padWidth then F ox else 0 := by
        intro kx F
        rw [pick hsw]
        refine Finset.sum_congr rfl fun ox _ => if_congr ?_ rfl rfl
        omega
      have hsum : (∑ oy ∈ Finset.range cols.height, ∑ kx ∈ Finset.range c.kernelWidth,
          ∑ ox ∈ Finset.range cols.width,
          if oy * c.strideHeight + ky = oe / c.sourceWidth + c.padHeight ∧
              ox * c.strideWidth + kx = oe % c.sourceWidth + c.padWidth then
            cols.val ox oy sample ((map * c.kernelHeight + ky) * c.kernelWidth + kx) else 0) =
          ∑ oy ∈ Finset.range cols.height,
            if oy * c.strideHeight + ky = oe / c.sourceWidth + c.padHeight then
              ∑ kx ∈ Finset.range c.kernelWidth, ∑ ox ∈ Finset.range cols.width,
                if ox * c.strideWidth + kx = oe % c.sourceWidth + c.padWidth then
                  cols.val ox oy sample ((map * c.kernelHeight + ky) * c.kernelWidth + kx) else 0
            else 0 := by
        refine Finset.sum_congr rfl fun oy _ => ?_
        by_cases h : oy * c.strideHeight + ky = oe / c.sourceWidth + c.padHeight <;> simp [h]
      rw [hsum, ← hrow]
      split
      · rename_i hc
        refine Evals.congr (Evals.loop (f := fun kx sum => some (sum +
          ∑ ox ∈ Finset.range cols.width, if ox * c.strideWidth + kx = oe % c.sourceWidth + c.padWidth then
            cols.val ox (((c.padHeight : Int) + (oe / c.sourceWidth : Nat) - ky).tdiv
              c.strideHeight).toNat sample ((map * c.kernelHeight + ky) * c.kernelWidth + kx) else 0))
          fun kx sum hkx => ?_) (forLoop_sum (fun kx sum _ => rfl) sum)
        rw [← hcol]
        split
        · rename_i hd
          refine Evals.congr (Evals.map (load1_some (d := cols.data) rfl ?_) _) rfl
          have htm : (map * c.kernelHeight + ky) * c.kernelWidth + kx < cols.samples := by
            rw [ht.2.1]
            have := radix_lt (radix_lt a2 hky) hkx
            have e : c.maps * c.kernelHeight * c.kernelWidth = c.targetMaps := by
              unfold TensorMath.ColShape.targetMaps; ring
            omega
          have := get_eq_val ht.1 (x := (((c.padWidth : Int) + (oe % c.sourceWidth : Nat) - kx).tdiv
              c.strideWidth).toNat) (y := (((c.padHeight : Int) + (oe / c.sourceWidth : Nat) - ky).tdiv
              c.strideHeight).toNat) (m := sample)
              (s := (map * c.kernelHeight + ky) * c.kernelWidth + kx)
              ⟨by omega, by omega, by have := ht.2.2.1; omega, htm⟩
          rw [get_eq_at, offset_eq, ht.2.2.1] at this
          rw [← this]
          congr 1
          ring
        · exact Evals.congr (Evals.ret sum) (by rw [add_zero])
      · exact Evals.congr (Evals.ret sum) (by rw [add_zero])
    · rw [a4]; ring
  · intro i hi
    have : i < q.data.length := by
      rw [hq, hgq.elements]
      simp only [col2im, Launch.grid] at hi
      have e : g.elements = c.sourceWidth * c.sourceHeight * c.maps * c.samples := by
        simp only [elements, s1, s2, s3, s4]; ring
      omega
    simp [this]

theorem comm2 {A B C : Finset Nat} (G : Nat → Nat → Nat → R) :
    ∑ y ∈ A, ∑ x ∈ B, ∑ a ∈ C, G y x a = ∑ a ∈ C, ∑ y ∈ A, ∑ x ∈ B, G y x a := by
  rw [Finset.sum_comm]
  rw [Finset.sum_congr rfl fun x _ => Finset.sum_comm (s := A) (t := C) (f := fun y a => G y x a),
    Finset.sum_comm]
  exact Finset.sum_congr rfl fun a _ => Finset.sum_comm

/-- The gathered values are the adjoint of the columns, for every geometry. -/
theorem gathered_adjoint {c : TensorMath.ColShape} {x cols t0 p q : Tensor R}
    (hsw : 0 < c.strideWidth) (hsh : 0 < c.strideHeight) (hx : c.FitsSource x) (hc : c.FitsTarget cols)
    (ht : c.FitsTarget t0) (hp : TensorMath.im2col c x t0 = .done p) (hq : Sh x q)
    (hval : ∀ a b m s, x.InRange a b m s → q.get a b m s = some (gathered c cols a b m s)) :
    dot p cols = dot x q := by
  obtain ⟨p', hp1, hp2, hp3, hp4⟩ := TensorMath.im2col_spec hsw hsh hx ht
  rw [hp] at hp1
  cases hp1
  have hpw : p.width = cols.width := by have := hp2.2.1; have := hc.2.2.2.1; have := ht.2.2.2.1; omega
  have hph : p.height = cols.height := by
    have := hp2.2.2.1; have := hc.2.2.2.2; have := ht.2.2.2.2; omega
  have hpm : p.maps = c.samples := by have := hp2.2.2.2; have := ht.2.2.1; omega
  have hps : p.samples = c.targetMaps := by have := hp2.1; have := ht.2.1; omega
  obtain ⟨hxw, x1, x2, x3, x4⟩ := hx
  unfold dot
  rw [hpw, hph, hpm, hps, x1, x2, x3, x4, Finset.sum_comm]
  refine Finset.sum_congr rfl fun s hs => ?_
  have hs' := Finset.mem_range.1 hs
  have e : c.targetMaps = c.maps * c.kernelHeight * c.kernelWidth := by
    unfold TensorMath.ColShape.targetMaps; ring
  rw [e, sum_range_mul, sum_range_mul]
  refine Finset.sum_congr rfl fun m hm => ?_
  have hm' := Finset.mem_range.1 hm
  have hR : ∑ y ∈ Finset.range c.sourceHeight, ∑ a ∈ Finset.range c.sourceWidth,
      x.val a y m s * q.val a y m s =
      ∑ y ∈ Finset.range c.sourceHeight, ∑ a ∈ Finset.range c.sourceWidth,
        ∑ ky ∈ Finset.range c.kernelHeight, ∑ oy ∈ Finset.range cols.height,
        ∑ kx ∈ Finset.range c.kernelWidth, ∑ ox ∈ Finset.range cols.width,
          if oy * c.strideHeight + ky = y + c.padHeight ∧ ox * c.strideWidth + kx = a + c.padWidth then
            x.val a y m s * cols.val ox oy s ((m * c.kernelHeight + ky) * c.kernelWidth + kx)
          else 0 := by
    refine Finset.sum_congr rfl fun y hy => Finset.sum_congr rfl fun a ha => ?_
    have hy' := Finset.mem_range.1 hy
    have ha' := Finset.mem_range.1 ha
    rw [val_of_get (hval a y m s ⟨by omega, by omega, by omega, by omega⟩)]
    unfold gathered
    simp only [Finset.mul_sum, mul_ite, mul_zero]
  rw [hR]
  refine Eq.trans ?_ (comm2 _).symm
  refine Finset.sum_congr rfl fun ky hky => ?_
  have hky' := Finset.mem_range.1 hky
  refine Eq.trans Finset.sum_comm (Eq.trans ?_ (comm2 _).symm)
  refine Finset.sum_congr rfl fun oy hoy => ?_
  have hoy' := Finset.mem_range.1 hoy
  refine Eq.trans ?_ (comm2 _).symm
  refine Finset.sum_congr rfl fun kx hkx => ?_
  have hkx' := Finset.mem_range.1 hkx
  refine Eq.trans ?_ (comm2 _).symm
  refine Finset.sum_congr rfl fun ox hox => ?_
  have hox' := Finset.mem_range.1 hox
  have h1 := radix_lt (radix_lt hm' hky') hkx'
  have hin := val_of_get (hp4 ox oy s ((m * c.kernelHeight + ky) * c.kernelWidth + kx)
    (by have := hp2.2.1; omega) (by have := hp2.2.2.1; omega) hs' (by omega))
  rw [hin]
  have e1 : ((m * c.kernelHeight + ky) * c.kernelWidth + kx) % c.kernelWidth = kx := by
    rw [Nat.add_comm, Nat.add_mul_mod_self_right, Nat.mod_eq_of_lt hkx']
  have e2 : ((m * c.kernelHeight + ky) * c.kernelWidth + kx) / c.kernelWidth = m * c.kernelHeight + ky := by
    rw [Nat.add_comm, Nat.add_mul_div_right _ _ (by omega), Nat.div_eq_of_lt hkx', Nat.zero_add]
  have e3 : (m * c.kernelHeight + ky) % c.kernelHeight = ky := by
    rw [Nat.add_comm, Nat.add_mul_mod_self_right, Nat.mod_eq_of_lt hky']
  have e4 : (m * c.kernelHeight + ky) / c.kernelHeight = m := by
    rw [Nat.add_comm, Nat.add_mul_div_right _ _ (by omega), Nat.div_eq_of_lt hky', Nat.zero_add]
  have i1 : c.imap ((m * c.kernelHeight + ky) * c.kernelWidth + kx) = m := by
    unfold TensorMath.ColShape.imap
    rw [← Nat.div_div_eq_div_mul, e2, e4]
  rw [i1]
  unfold TensorMath.padded TensorMath.ColShape.ix TensorMath.ColShape.iy
  rw [e1, e2, e3, x1, x2]
  generalize hY : cols.val ox oy s ((m * c.kernelHeight + ky) * c.kernelWidth + kx) = Y
  split
  · rename_i h
    obtain ⟨⟨a1, a2⟩, b1, b2⟩ := h
    rw [Finset.sum_eq_single ((oy : Int) * c.strideHeight - c.padHeight + (ky : Nat)).toNat,
      Finset.sum_eq_single ((ox : Int) * c.strideWidth - c.padWidth + (kx : Nat)).toNat]
    · rw [if_pos]
      omega
    · intro b _ hb
      rw [if_neg]
      rintro ⟨_, h⟩
      omega
    · intro hn
      exact absurd (Finset.mem_range.2 (by omega)) hn
    · intro b _ hb
      refine Finset.sum_eq_zero fun a _ => if_neg ?_
      rintro ⟨h, _⟩
      omega
    · intro hn
      exact absurd (Finset.mem_range.2 (by omega)) hn
  · rename_i h
    rw [zero_mul, Finset.sum_eq_zero]
    intro y hy
    refine Finset.sum_eq_zero fun a ha => if_neg ?_
    have hy' := Finset.mem_range.1 hy
    have ha' := Finset.mem_range.1 ha
    rintro ⟨h1, h2⟩
    apply h
    omega

/-- Where the host accumulates correctly the device computes the same. -/
theorem gathered_host {c : TensorMath.ColShape} {g0 cols t0 u q : Tensor R}
    (hsw : 0 < c.strideWidth) (hsh : 0 < c.strideHeight) (hg : c.FitsSource g0) (hc : c.FitsTarget cols)
    (ht : c.FitsTarget t0)
    (hagree : ∀ tm ox oy, tm < c.targetMaps → ox < cols.width → oy < cols.height →
      0 ≤ c.iy tm oy → c.iy tm oy < c.sourceHeight → 0 ≤ c.ix tm ox →
      (c.iy tm oy < c.sourceWidth ↔ c.ix tm ox < c.sourceWidth))
    (hu : TensorMath.col2im c g0 cols = .done u) (hqw : q.WF) (hq : Sh g0 q)
    (hval : ∀ a b m s, g0.InRange a b m s → q.get a b m s = some (gathered c cols a b m s)) :
    q.data = u.data := by
  have key : ∀ x : Tensor R, c.FitsSource x → dot x q = dot x u ∧ Sh x u := by
    intro x hx
    have hxg : Sh x g0 := by
      obtain ⟨_, a, b, d, e⟩ := hx
      obtain ⟨_, a', b', d', e'⟩ := hg
      exact ⟨by omega, by omega, by omega, by omega⟩
    obtain ⟨p, u', h1, h2, _, h4, h5⟩ := TensorMath.col2im_adjoint ⟨hsw, hsh⟩ hx hg hc ht hagree
    rw [hu] at h2
    cases h2
    refine ⟨?_, h4⟩
    rw [← h5, gathered_adjoint hsw hsh hx hc ht h1 (hxg.trans hq) fun a b m s h =>
      hval a b m s (hxg.inRange.2 h)]
  have hgu : Sh g0 u := (key g0 hg).2
  have hul : u.data.length = g0.data.length := by
    rw [TensorMath.col2im_eq hsw hsh hg hc] at hu
    have := mods_length (Outcome.ofOption_eq_done.1 hu)
    simpa using this
  have hql : q.data.length = g0.data.length := by rw [hqw, hg.1, hq.elements]
  refine List.ext_getElem (by omega) fun j h1 h2 => ?_
  let e : Tensor R := { g0 with data := (List.replicate g0.data.length 0).set j 1 }
  have he : c.FitsSource e := by
    refine ⟨?_, hg.2⟩
    have := hg.1
    simp only [WF, elements, e, List.length_set, List.length_replicate] at this ⊢
    exact this
  have hje : j < e.elements := by
    have : e.elements = g0.data.length := by rw [hg.1]; rfl
    omega
  obtain ⟨hd, _⟩ := key e he
  have hdot : ∀ v : Tensor R, Sh g0 v → ∀ hv : j < v.data.length, dot e v = v.data[j] := by
    intro v hgv hv
    have hev : Sh e v := hgv
    rw [dot_eq hev, Finset.sum_eq_single j]
    · simp [e, show j < g0.data.length by omega, hv]
    · intro k _ hk
      have : e.data.getD k 0 = 0 := by
        simp only [e, List.getD_eq_getElem?_getD, List.getElem?_set_ne (Ne.symm hk)]
        rw [List.getElem?_replicate]
        split <;> rfl
      rw [this, zero_mul]
    · intro hn
      exact absurd (Finset.mem_range.2 hje) hn
  rw [← hdot q hq h1, ← hdot u hgu h2, hd]

end

end CN24.DeviceKernels
