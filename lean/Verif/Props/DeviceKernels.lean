import Verif.Proof.DevicePooling
import Verif.Props.TensorMath
import Verif.Props.Activations

/-! C80: the OpenCL kernels compute what the host computes. -/

namespace CN24.Config
variable {B : Type} [DecidableEq B] {V : B → Type} {n : Nat}

/-- A program that, run alone, leaves its buffers does so in some schedule. -/
theorem undefined_of_run (i : Fin n) (p : Prog V Unit) : ∀ {k : Nat} {c0 c : Config V n}, Steps k c0 c →
    c.thread i = p → p.run c.mem = none → ∃ l d, Steps l c0 d ∧ d.Undefined := by
  induction p with
  | ret r => intro k c0 c _ _ h; simp [Prog.run] at h
  | read b j q ih =>
    intro k c0 c hs ht h
    cases hr : rd (c.mem b) j with
    | none => exact ⟨k, c, hs, i, by rw [ht]; exact id, by rw [ht, Prog.step, hr]; rfl⟩
    | some v =>
      rw [Prog.run, hr] at h
      refine ih v (k := k + 1) (c := ⟨c.mem, fun l => if l = i then q v else c.thread l⟩)
        (hs.snoc ⟨i, q v, by rw [ht, Prog.step, hr]; rfl, rfl⟩) (by simp) h
  | write b j v q ih =>
    intro k c0 c hs ht h
    cases hr : wr (c.mem b) j v with
    | none => exact ⟨k, c, hs, i, by rw [ht]; exact id, by rw [ht, Prog.step, hr]; rfl⟩
    | some l =>
      rw [Prog.run, hr] at h
      refine ih (k := k + 1) (c := ⟨c.mem.set b l, fun l => if l = i then q else c.thread l⟩)
        (hs.snoc ⟨i, q, by rw [ht, Prog.step, hr]; rfl, rfl⟩) (by simp) h

end CN24.Config

namespace CN24.Props
open CN24 CN24.Tensor CN24.Parallel
open CN24.DeviceKernels (Launch regionScan poolScan FirstMax Before gathered exists_tensor)
variable {R : Type}

theorem not_gives {l : Launch R} {m m' : Mem (Cell R)} {i : Nat} (hi : i < l.items)
    (h : (l.item i).run m = none) : ¬ l.Gives m m' := by
  intro hg
  obtain ⟨k, d, h1, h2⟩ := Config.undefined_of_run (⟨i, hi⟩ : Fin l.items) _
    (Config.Steps.refl ⟨m, fun i : Fin l.items => l.item i⟩) rfl h
  exact hg.defined k d h1 h2

/-! ### Copies and sums -/

/-- C80, filling a whole tensor. -/
theorem C80_set_all [CommRing R] (A : Tensor R) (hA : A.WF) (value : R) :
    ∃ u, TensorMath.setSample A none value = some u ∧
      (DeviceKernels.setSample A none value).Gives (memOf [A.data] []) (memOf [u.data] []) :=
  ⟨_, TensorMath.setSample_all hA value, DeviceKernels.setSample_all_gives A hA value⟩

/-- C80, exchange of samples and maps. -/
theorem C80_sms [CommRing R] (source target : Tensor R) (hs : source.WF) (ht : target.WF)
    (hw : source.width = target.width) (hh : source.height = target.height)
    (h1 : source.samples = target.maps) (h2 : source.maps = target.samples) :
    ∃ u, TensorMath.sms source target = some u ∧
      (DeviceKernels.sms target).Gives (memOf [target.data, source.data] []) (memOf [u.data, source.data] []) := by
  obtain ⟨u, hu, _⟩ := TensorMath.sms_spec hs ht hw hh h1 h2
  exact ⟨u, hu, DeviceKernels.sms_gives hs ht hw hh h1 h2 hu⟩

/-- C80, sums over regions. -/
theorem C80_down [CommRing R] (source target : Tensor R) (rw rh : Nat) (factor : R) (hs : source.WF)
    (ht : target.WF) (hw : source.width = rw * target.width)
    (hh : source.height = rh * target.height) (hm : source.maps = target.maps)
    (hsm : source.samples = target.samples) :
    ∃ u, TensorMath.down source target rw rh factor = some u ∧
      (DeviceKernels.down source target rw rh factor).Gives (memOf [target.data, source.data] [])
        (memOf [u.data, source.data] []) := by
  obtain ⟨u, hu, _⟩ := TensorMath.down_spec (factor := factor) hs ht hw hh hm hsm
  exact ⟨u, hu, DeviceKernels.down_gives hs ht hw hh hm hsm hu⟩

/-- C80, repetition over regions. -/
theorem C80_up [CommRing R] (source target : Tensor R) (rw rh : Nat) (factor : R) (hs : source.WF)
    (ht : target.WF) (hw : target.width = rw * source.width)
    (hh : target.height = rh * source.height) (hm : target.maps = source.maps)
    (hsm : target.samples = source.samples) :
    ∃ u, TensorMath.up source target rw rh factor = some u ∧
      (DeviceKernels.up source target rw rh factor).Gives (memOf [target.data, source.data] [])
        (memOf [u.data, source.data] []) := by
  obtain ⟨u, hu, _⟩ := TensorMath.up_spec (factor := factor) hs ht hw hh hm hsm
  exact ⟨u, hu, DeviceKernels.up_gives hs ht hw hh hm hsm hu⟩

/-- C80, columns of a convolution. -/
theorem C80_im2col [CommRing R] (c : TensorMath.ColShape) (source target : Tensor R)
    (hsw : 0 < c.strideWidth) (hsh : 0 < c.strideHeight) (hs : c.FitsSource source)
    (ht : c.FitsTarget target) :
    ∃ u, TensorMath.im2col c source target = .done u ∧
      (DeviceKernels.im2col (R := R) c).Gives (memOf [target.data, source.data] [])
        (memOf [u.data, source.data] []) := by
  obtain ⟨u, hu, _⟩ := TensorMath.im2col_spec hsw hsh hs ht
  exact ⟨u, hu, DeviceKernels.im2col_gives hsw hsh hs ht hu⟩

/-- C80, the way back from the columns: for every geometry the device computes the adjoint of IM2COL,
whatever the image held before. -/
theorem C80_col2im [CommRing R] (c : TensorMath.ColShape) (g cols t0 : Tensor R)
    (hsw : 0 < c.strideWidth) (hsh : 0 < c.strideHeight) (hg : c.FitsSource g)
    (hc : c.FitsTarget cols) (ht : c.FitsTarget t0) :
    ∃ q, Sh g q ∧ q.WF ∧
      (DeviceKernels.col2im (R := R) c).Gives (memOf [g.data, cols.data] []) (memOf [q.data, cols.data] []) ∧
      ∀ x, c.FitsSource x → ∃ p, TensorMath.im2col c x t0 = .done p ∧ dot p cols = dot x q := by
  obtain ⟨q, h1, h2, h3⟩ := exists_tensor g (gathered c cols)
  refine ⟨q, h1, h2, DeviceKernels.col2im_gives hsw hsh hg hc h2 h1 h3, fun x hx => ?_⟩
  obtain ⟨p, hp, _⟩ := TensorMath.im2col_spec hsw hsh hx ht
  have hxg : Sh x g := by
    obtain ⟨_, a, b, d, e⟩ := hx
    obtain ⟨_, a', b', d', e'⟩ := hg
    exact ⟨by omega, by omega, by omega, by omega⟩
  exact ⟨p, hp, DeviceKernels.gathered_adjoint hsw hsh hx hc ht hp (hxg.trans h1)
    fun a b m s h => h3 a b m s (hxg.inRange.2 h)⟩

/-- C80, the way back from the columns: the device agrees with the host where the host is right (see
C33). -/
theorem C80_col2im_host_partial [CommRing R] (c : TensorMath.ColShape) (g cols t0 : Tensor R)
    (hsw : 0 < c.strideWidth) (hsh : 0 < c.strideHeight) (hg : c.FitsSource g)
    (hc : c.FitsTarget cols) (ht : c.FitsTarget t0)
    (hagree : ∀ tm ox oy, tm < c.targetMaps → ox < cols.width → oy < cols.height →
      0 ≤ c.iy tm oy → c.iy tm oy < c.sourceHeight → 0 ≤ c.ix tm ox →
      (c.iy tm oy < c.sourceWidth ↔ c.ix tm ox < c.sourceWidth)) :
    ∃ u, TensorMath.col2im c g cols = .done u ∧
      (DeviceKernels.col2im (R := R) c).Gives (memOf [g.data, cols.data] []) (memOf [u.data, cols.data] []) := by
  obtain ⟨q, h1, h2, h3⟩ := exists_tensor g (gathered c cols)
  obtain ⟨_, u, _, hu, _⟩ := TensorMath.col2im_adjoint ⟨hsw, hsh⟩ hg hg hc ht hagree
  refine ⟨u, hu, ?_⟩
  rw [← DeviceKernels.gathered_host hsw hsh hg hc ht hagree hu h2 h1 h3]
  exact DeviceKernels.col2im_gives hsw hsh hg hc h2 h1 h3

/-- C80, violated: for every 3x3 convolution of square images with padding 1, host and device differ.
The host leaves the buffer, the device computes the gradient. -/
theorem C80_same_convolution_differs [CommRing R] (n maps samples : Nat) (hn : 0 < n) (hm : 0 < maps)
    (hsm : 0 < samples) (g cols : Tensor R)
    (hg : (TensorMath.ColShape.mk n n maps samples 3 3 1 1 1 1).FitsSource g)
    (hc : (TensorMath.ColShape.mk n n maps samples 3 3 1 1 1 1).FitsTarget cols) :
    TensorMath.col2im (TensorMath.ColShape.mk n n maps samples 3 3 1 1 1 1) g cols = .undefined ∧
      ∃ q : Tensor R, (DeviceKernels.col2im (R := R) (TensorMath.ColShape.mk n n maps samples 3 3 1 1 1 1)).Gives
        (memOf [g.data, cols.data] []) (memOf [q.data, cols.data] []) := by
  refine ⟨C33_same_convolution_undefined n maps samples hn hm hsm g cols hg hc, ?_⟩
  obtain ⟨q, _, _, h, _⟩ := C80_col2im _ g cols cols Nat.one_pos Nat.one_pos hg hc hc
  exact ⟨q, h⟩

/-! ### Filling one sample -/

/-- What the device does when one sample is filled, as far as it stays in the buffer: it fills
`width * height * samples` elements. -/
theorem setSample_one_gives (A : Tensor R) (s : Nat) (value : R)
    (hfit : s * (A.width * A.height * A.maps) + A.width * A.height * A.samples ≤ A.data.length) (d : List R)
    (hd : d.length = A.data.length)
    (hval : ∀ k, k < A.data.length → d[k]? = if s * (A.width * A.height * A.maps) ≤ k ∧
      k < s * (A.width * A.height * A.maps) + A.width * A.height * A.samples then some value else A.data[k]?) :
    (DeviceKernels.setSample A (some s) value).Gives (memOf [A.data] []) (memOf [d] []) := by
  refine DeviceKernels.gives_of_stores (l := DeviceKernels.setSample A (some s) value)
    (fun i => i + s * (A.width * A.height * A.maps)) (fun _ => value)
    (fun i hi => DeviceKernels.runs_store' rfl) ?_ (fun i j _ _ h => by omega) d hd ?_ ?_
  · intro i hi
    simp only [DeviceKernels.setSample] at hi
    omega
  · intro i hi
    simp only [DeviceKernels.setSample] at hi
    rw [hval _ (by omega), if_pos (by omega)]
  · intro k hk
    rcases Nat.lt_or_ge k A.data.length with h | h
    · rw [hval k h, if_neg]
      rintro ⟨h1, h2⟩
      refine hk (k - s * (A.width * A.height * A.maps)) ?_ (by omega)
      simp only [DeviceKernels.setSample]
      omega
    · rw [List.getElem?_eq_none (by omega), List.getElem?_eq_none h]

theorem setSample_one_host [CommRing R] {A : Tensor R} (hA : A.WF) {s : Nat} (hs : s < A.samples) (value : R) :
    ∃ u, TensorMath.setSample A (some s) value = some u ∧ u.data.length = A.data.length ∧
      ∀ k, k < A.data.length → u.data[k]? = if s * (A.width * A.height * A.maps) ≤ k ∧
        k < (s + 1) * (A.width * A.height * A.maps) then some value else A.data[k]? := by
  have e : ∀ s, A.offset 0 0 0 s = s * (A.width * A.height * A.maps) := by
    intro s; rw [offset_eq]; ring
  have hend : (s + 1) * (A.width * A.height * A.maps) ≤ A.data.length := by
    rw [hA]
    calc _ ≤ A.samples * (A.width * A.height * A.maps) := Nat.mul_le_mul_right _ hs
      _ = _ := by simp only [elements]; ring
  have hn : s * (A.width * A.height * A.maps) + A.width * A.height * A.maps =
      (s + 1) * (A.width * A.height * A.maps) := by ring
  obtain ⟨u, h1, _, h3, h4, h5⟩ := DeviceKernels.forLoop_stores (n := A.width * A.height * A.maps) A
    (fun i => s * (A.width * A.height * A.maps) + i) (fun _ => value) (fun i hi => by omega)
    (fun i j _ _ h => by omega)
  refine ⟨u, ?_, h3, fun k hk => ?_⟩
  · unfold TensorMath.setSample forRange
    simp only [e]
    rw [← h1]
    congr 1
    omega
  · split
    · rename_i h
      have := h4 (k - s * (A.width * A.height * A.maps)) (by omega)
      rw [show s * (A.width * A.height * A.maps) + (k - s * (A.width * A.height * A.maps)) = k by omega] at this
      exact this
    · rename_i h
      exact h5 k fun i hi e => h (by omega)

/-- C80, filling one sample: right if the tensor has as many maps as samples. -/
theorem C80_set_one_partial [CommRing R] (A : Tensor R) (hA : A.WF) (s : Nat) (hs : s < A.samples)
    (hsq : A.maps = A.samples) (value : R) :
    ∃ u, TensorMath.setSample A (some s) value = some u ∧
      (DeviceKernels.setSample A (some s) value).Gives (memOf [A.data] []) (memOf [u.data] []) := by
  obtain ⟨u, h1, h2, h3⟩ := setSample_one_host hA hs value
  have hn : s * (A.width * A.height * A.maps) + A.width * A.height * A.samples =
      (s + 1) * (A.width * A.height * A.maps) := by rw [← hsq]; ring
  refine ⟨u, h1, setSample_one_gives A s value ?_ u.data h2 fun k hk => ?_⟩
  · rw [hn, hA]
    calc _ ≤ A.samples * (A.width * A.height * A.maps) := Nat.mul_le_mul_right _ hs
      _ = _ := by simp only [elements]; ring
  · rw [h3 k hk, hn]

/-- C80, violated: with more maps than samples the device leaves the last map of the sample as it was. -/
theorem C80_set_one_misses [CommRing R] (A : Tensor R) (hA : A.WF) (s : Nat) (hs : s < A.samples)
    (hlt : A.samples < A.maps) (value : R) :
    ∃ u d, TensorMath.setSample A (some s) value = some u ∧
      (DeviceKernels.setSample A (some s) value).Gives (memOf [A.data] []) (memOf [d] []) ∧
      ∀ x y, x < A.width → y < A.height → u.data[A.offset x y (A.maps - 1) s]? = some value ∧
        d[A.offset x y (A.maps - 1) s]? = A.data[A.offset x y (A.maps - 1) s]? := by
  obtain ⟨u, h1, h2, h3⟩ := setSample_one_host hA hs value
  have hend : s * (A.width * A.height * A.maps) + A.width * A.height * A.maps ≤ A.data.length := by
    rw [hA]
    calc _ = (s + 1) * (A.width * A.height * A.maps) := by ring
      _ ≤ A.samples * (A.width * A.height * A.maps) := Nat.mul_le_mul_right _ hs
      _ = _ := by simp only [elements]; ring
  have hle : A.width * A.height * A.samples ≤ A.width * A.height * (A.maps - 1) :=
    Nat.mul_le_mul_left _ (by omega)
  have hle' : A.width * A.height * (A.maps - 1) ≤ A.width * A.height * A.maps :=
    Nat.mul_le_mul_left _ (by omega)
  refine ⟨u, (List.range A.data.length).map (fun k => if s * (A.width * A.height * A.maps) ≤ k ∧
      k < s * (A.width * A.height * A.maps) + A.width * A.height * A.samples then value else A.data.getD k 0),
    h1, setSample_one_gives A s value (by omega) _ (by simp) (fun k hk => ?_), fun x y hx hy => ?_⟩
  · rw [List.getElem?_map, List.getElem?_range hk, Option.map_some]
    split
    · rfl
    · rw [List.getD_eq_getElem?_getD, List.getElem?_eq_getElem hk]; rfl
  · have hin : A.InRange x y (A.maps - 1) s := ⟨hx, hy, by omega, hs⟩
    have hlt' := offset_lt A hin
    rw [← hA] at hlt'
    have e : A.offset x y (A.maps - 1) s = s * (A.width * A.height * A.maps) +
        A.width * A.height * (A.maps - 1) + (y * A.width + x) := by rw [offset_eq]; ring
    have hxy : y * A.width + x < A.width * A.height := by
      have := radix_lt hy hx
      rwa [Nat.mul_comm A.height] at this
    have hm1 : A.width * A.height * (A.maps - 1) + A.width * A.height = A.width * A.height * A.maps := by
      rw [← Nat.mul_succ]; congr 1; omega
    have hn : (s + 1) * (A.width * A.height * A.maps) = s * (A.width * A.height * A.maps) +
      A.width * A.height * A.maps := by ring
    constructor
    · rw [h3 _ hlt', if_pos (by omega)]
    · rw [List.getElem?_map, List.getElem?_range hlt', Option.map_some, if_neg (by omega),
        List.getD_eq_getElem?_getD, List.getElem?_eq_getElem hlt']
      rfl

/-- C80, violated: with more samples than maps, filling the last sample writes past the end of the
buffer. -/
theorem C80_set_one_overruns [CommRing R] (A : Tensor R) (hA : A.WF) (hpos : 0 < A.width * A.height)
    (hlt : A.maps < A.samples) (value : R) (m' : Mem (Cell R)) :
    ¬ (DeviceKernels.setSample A (some (A.samples - 1)) value).Gives (memOf [A.data] []) m' := by
  have h1 : A.width * A.height * (A.maps + 1) ≤ A.width * A.height * A.samples := Nat.mul_le_mul_left _ hlt
  have e1 : A.width * A.height * (A.maps + 1) = A.width * A.height * A.maps + A.width * A.height := by ring
  refine not_gives (i := A.width * A.height * A.samples - 1) ?_ ?_
  · simp only [DeviceKernels.setSample]; omega
  · have hlen : A.data.length = (A.samples - 1) * (A.width * A.height * A.maps) +
        A.width * A.height * A.maps := by
      rw [hA]
      obtain ⟨k, hk⟩ : ∃ k, A.samples = k + 1 := ⟨A.samples - 1, by omega⟩
      simp only [elements, hk, Nat.add_sub_cancel]; ring
    simp only [DeviceKernels.setSample, DeviceKernels.setValue, store, Prog.put, Prog.run]
    have : wr (memOf [A.data] [] (Buf.val 0)) (A.width * A.height * A.samples - 1 +
        (A.samples - 1) * (A.width * A.height * A.maps)) value = none := by
      show wr A.data _ value = none
      unfold wr
      rw [if_neg (by omega)]
    rw [this]
    rfl

/-- C80, violated: the device does not compare the sizes.  With a target that is too small the host
ends with an error and the device writes past its end. -/
theorem C80_im2col_overruns [CommRing R] (c : TensorMath.ColShape) (source target : Tensor R)
    (hsw : 0 < c.strideWidth) (hsh : 0 < c.strideHeight) (ht : target.WF)
    (hw : 0 < c.targetWidth) (hh : 0 < c.targetHeight) (hm : 0 < c.targetMaps) (hs : 0 < c.samples)
    (hsmall : (target.elements : Int) < c.targetSize) (m' : Mem (Cell R)) :
    TensorMath.im2col c source target = .fatal ∧
      ¬ (DeviceKernels.im2col (R := R) c).Gives (memOf [target.data, source.data] []) m' := by
  constructor
  · unfold TensorMath.im2col
    rw [if_neg (by omega), if_pos]
    intro e
    rw [e] at hsmall
    simp only [elements] at hsmall
    have : target.samples * target.maps * target.width * target.height =
      target.samples * target.width * target.height * target.maps := by ring
    omega
  · obtain ⟨w, hw'⟩ : ∃ w : Nat, c.targetWidth = (w + 1 : Nat) := ⟨(c.targetWidth - 1).toNat, by omega⟩
    obtain ⟨h, hh'⟩ : ∃ h : Nat, c.targetHeight = (h + 1 : Nat) := ⟨(c.targetHeight - 1).toNat, by omega⟩
    obtain ⟨m, hm'⟩ : ∃ m : Nat, c.targetMaps = m + 1 := ⟨c.targetMaps - 1, by omega⟩
    obtain ⟨s, hs'⟩ : ∃ s : Nat, c.samples = s + 1 := ⟨c.samples - 1, by omega⟩
    have hsize : target.data.length < (s + 1) * (w + 1) * (h + 1) * (m + 1) := by
      rw [ht]
      unfold TensorMath.ColShape.targetSize at hsmall
      rw [hw', hh', hm', hs'] at hsmall
      exact_mod_cast hsmall
    have ew : c.targetWidth.toNat = w + 1 := by omega
    have eh : c.targetHeight.toNat = h + 1 := by omega
    have ho : h * (w + 1) + w < (w + 1) * (h + 1) := by
      have : (w + 1) * (h + 1) = h * (w + 1) + w + 1 := by ring
      omega
    have hlt := DeviceKernels.grid_lt (n2 := s + 1) ho (Nat.lt_succ_self m) (Nat.lt_succ_self s)
    obtain ⟨g1, g2, g3⟩ := DeviceKernels.grid_of (s := s) ho (Nat.lt_succ_self m)
    have hfail : ∀ v : R, (store 0 (m * (s + 1) * (w + 1) * (h + 1) + (s * (h + 1) + h) * (w + 1) + w) v).run
        (memOf [target.data, source.data] []) = none := by
      intro v
      simp only [store, Prog.put, Prog.run]
      have : wr (memOf [target.data, source.data] [] (Buf.val 0))
          (m * (s + 1) * (w + 1) * (h + 1) + (s * (h + 1) + h) * (w + 1) + w) v = none := by
        show wr target.data _ v = none
        unfold wr
        have e : (s + 1) * (w + 1) * (h + 1) * (m + 1) =
          m * (s + 1) * (w + 1) * (h + 1) + (s * (h + 1) + h) * (w + 1) + w + 1 := by ring
        rw [if_neg (by omega)]
      rw [this]
      rfl
    refine not_gives (i := (s * (m + 1) + m) * ((w + 1) * (h + 1)) + (h * (w + 1) + w)) ?_ ?_
    · simp only [DeviceKernels.im2col, Launch.grid, ew, eh, hm', hs']
      exact hlt
    · simp only [DeviceKernels.im2col, Launch.grid, ew, eh, hm', g1, g2, g3, DeviceKernels.im2colItem]
      have d1 : (h * (w + 1) + w) / (w + 1) = h := by
        rw [Nat.add_comm, Nat.add_mul_div_right _ _ (by omega), Nat.div_eq_of_lt (by omega), Nat.zero_add]
      have d2 : (h * (w + 1) + w) % (w + 1) = w := by
        rw [Nat.add_comm, Nat.add_mul_mod_self_right, Nat.mod_eq_of_lt (by omega)]
      rw [d1, d2, hs']
      split
      · rw [Prog.run_bind, load, Prog.get, Prog.run]
        cases rd (memOf [target.data, source.data] [] (Buf.val 1)) _ with
        | none => rfl
        | some v => exact hfail v
      · exact hfail 0

/-! ### Activation functions -/

/-- C80, sigmoid. -/
theorem C80_sigmoid [Field R] (exp : R → R) (input output outputDelta inputDelta u v : Tensor R)
    (hu : Activations.sigmoidForward exp input output = some u)
    (hv : Activations.sigmoidBackward input u outputDelta inputDelta = some v) :
    (DeviceKernels.activationForward (fun x => 1 / (1 + exp (-x))) input).Gives
        (memOf [output.data, input.data] []) (memOf [u.data, input.data] []) ∧
      (DeviceKernels.activationBackward (fun y dy => dy * y * (1 - y)) input).Gives
        (memOf [inputDelta.data, u.data, outputDelta.data] [])
        (memOf [v.data, u.data, outputDelta.data] []) := by
  refine ⟨DeviceKernels.activationForward_gives _ hu, DeviceKernels.activationBackward_gives _ ?_⟩
  rw [← hv, Activations.sigmoidBackward]
  congr 1
  funext e
  cases rd outputDelta.data e <;> cases rd u.data e <;> rfl

/-- C80, hyperbolic tangent: the device calls the library's `tanh`. -/
theorem C80_tanh (input output outputDelta inputDelta u v : Tensor ℝ)
    (hu : Activations.tanhForward Real.exp input output = some u)
    (hv : Activations.tanhBackward input u outputDelta inputDelta = some v) :
    (DeviceKernels.activationForward Real.tanh input).Gives
        (memOf [output.data, input.data] []) (memOf [u.data, input.data] []) ∧
      (DeviceKernels.activationBackward (fun y dy => dy * (1 - y * y)) input).Gives
        (memOf [inputDelta.data, u.data, outputDelta.data] [])
        (memOf [v.data, u.data, outputDelta.data] []) := by
  constructor
  · have : Activations.tanh Real.exp = Real.tanh := funext tanh_eq_tanh
    rw [← this]
    exact DeviceKernels.activationForward_gives _ hu
  · refine DeviceKernels.activationBackward_gives _ ?_
    rw [← hv, Activations.tanhBackward]
    congr 1
    funext e
    cases rd outputDelta.data e <;> cases rd u.data e <;> rfl

/-! ### Pooling -/

/-- Position `px`, `py` is the first one in row order with the greatest value of the region. -/
def FirstOfRegion [LT R] [LE R] (t : Tensor R) (x0 y0 rw rh m s px py : Nat) : Prop :=
  ∃ v, t.get px py m s = some v ∧ (x0 ≤ px ∧ px < x0 + rw) ∧ (y0 ≤ py ∧ py < y0 + rh) ∧
    RegionMax t x0 y0 rw rh m s v ∧
    ∀ x y w, x0 ≤ x → x < x0 + rw → y0 ≤ y → y < y0 + rh → (y < py ∨ (y = py ∧ x < px)) →
      t.get x y m s = some w → w < v

section
variable [LinearOrder R] [Zero R]

theorem poolScan_first {input : Tensor R} {lowest : R} {rw rh sw sh ox oy m s : Nat} (hrw : 0 < rw)
    (hrh : 0 < rh)
    (hin : ∀ i j, i < rw → j < rh → input.get (ox * sw + i) (oy * sh + j) m s =
      some (input.val (ox * sw + i) (oy * sh + j) m s))
    (hlow : ∀ i j, i < rw → j < rh → lowest ≤ input.val (ox * sw + i) (oy * sh + j) m s) :
    FirstOfRegion input (ox * sw) (oy * sh) rw rh m s
      (ox * sw + (poolScan lowest input rw rh sw sh ox oy m s).2.1)
      (oy * sh + (poolScan lowest input rw rh sw sh ox oy m s).2.2) ∧
    RegionMax input (ox * sw) (oy * sh) rw rh m s (poolScan lowest input rw rh sw sh ox oy m s).1 := by
  unfold poolScan
  have key : ∀ x y w, ox * sw ≤ x → x < ox * sw + rw → oy * sh ≤ y → y < oy * sh + rh →
      input.get x y m s = some w → ∃ i j, i < rw ∧ j < rh ∧ x = ox * sw + i ∧ y = oy * sh + j ∧
        w = input.val (ox * sw + i) (oy * sh + j) m s := by
    intro x y w h1 h2 h3 h4 hw
    refine ⟨x - ox * sw, y - oy * sh, by omega, by omega, by omega, by omega, ?_⟩
    have := hin (x - ox * sw) (y - oy * sh) (by omega) (by omega)
    rw [show ox * sw + (x - ox * sw) = x by omega, show oy * sh + (y - oy * sh) = y by omega] at this ⊢
    rw [hw] at this
    exact Option.some.inj this
  rcases DeviceKernels.regionScan_spec lowest (fun i j => input.val (ox * sw + i) (oy * sh + j) m s) rw rh with
    ⟨h1, h2⟩ | ⟨i, j, ⟨hi, hj⟩, h2, h3, h4⟩
  · rw [h2]
    have hall : ∀ i j, i < rw → j < rh → input.val (ox * sw + i) (oy * sh + j) m s = lowest :=
      fun i j hi hj => le_antisymm (h1 i j ⟨hi, hj⟩) (hlow i j hi hj)
    have hmax : RegionMax input (ox * sw) (oy * sh) rw rh m s lowest := by
      refine ⟨⟨0, 0, hrw, hrh, ?_⟩, fun i j w hi hj hw => ?_⟩
      · rw [hin 0 0 hrw hrh, hall 0 0 hrw hrh]
      · rw [hin i j hi hj] at hw
        rw [← Option.some.inj hw]
        exact h1 i j ⟨hi, hj⟩
    refine ⟨⟨lowest, ?_, by simp only []; omega, by simp only []; omega, hmax, ?_⟩, hmax⟩
    · rw [hin 0 0 hrw hrh, hall 0 0 hrw hrh]
    · intro x y w h1 h2 h3 h4 h5
      simp only [] at h5
      omega
  · rw [h2]
    have hmax : RegionMax input (ox * sw) (oy * sh) rw rh m s
        (input.val (ox * sw + i) (oy * sh + j) m s) := by
      refine ⟨⟨i, j, hi, hj, hin i j hi hj⟩, fun a b w ha hb hw => ?_⟩
      rw [hin a b ha hb] at hw
      rw [← Option.some.inj hw]
      exact (h4 a b ⟨ha, hb⟩).1
    refine ⟨⟨_, hin i j hi hj, by simp only []; omega, by simp only []; omega, hmax, ?_⟩, hmax⟩
    intro x y w a1 a2 a3 a4 a5 hw
    obtain ⟨a, b, ha, hb, rfl, rfl, rfl⟩ := key x y w a1 a2 a3 a4 hw
    refine (h4 a b ⟨ha, hb⟩).2 ?_
    unfold Before
    simp only [] at a5
    omega

theorem found_scan_eq {input : Tensor R} {lowest : R} {rw rh sw sh ox oy m s : Nat} {r : R × Nat × Nat}
    (h : Pooling.Found input lowest (ox * sw) (oy * sh) rw rh m s r)
    (hin : ∀ i j, i < rw → j < rh → input.get (ox * sw + i) (oy * sh + j) m s =
      some (input.val (ox * sw + i) (oy * sh + j) m s)) :
    r.1 = (poolScan lowest input rw rh sw sh ox oy m s).1 := by
  unfold poolScan
  rcases DeviceKernels.regionScan_spec lowest (fun i j => input.val (ox * sw + i) (oy * sh + j) m s) rw rh with
    ⟨h1, h2⟩ | ⟨i, j, ⟨hi, hj⟩, h2, h3, h4⟩ <;> rw [h2] <;>
    rcases h with ⟨g1, rfl⟩ | ⟨a, b, ha, hb, g1, g2, g3, g4⟩
  · rfl
  · rw [hin a b ha hb] at g2
    have := h1 a b ⟨ha, hb⟩
    simp only [Option.some.inj g2] at this
    exact absurd this (not_le.2 g3)
  · exact absurd (g1 i j _ hi hj (hin i j hi hj)) (not_le.2 h3)
  · refine le_antisymm ?_ (g4 i j _ hi hj (hin i j hi hj))
    rw [hin a b ha hb] at g2
    rw [← Option.some.inj g2]
    exact (h4 a b ⟨ha, hb⟩).1

end

/-- C80, max pooling forward: the device computes the host's outputs. -/
theorem C80_max_pooling [LinearOrder R] [Zero R] [One R] (lowest : R) (input out mask : Tensor R)
    (mx my : Tensor Nat) (rw rh : Nat) (hrw : 0 < rw) (hrh : 0 < rh)
    (hi : input.WF) (ho : out.WF) (hm : mask.WF) (hmx : mx.WF) (hmy : my.WF) (h1 : Sh out mx) (h2 : Sh out my)
    (hmi : Sh input mask) (hs : out.samples = input.samples) (hmaps : out.maps = input.maps)
    (hw : input.width = out.width * rw) (hh : input.height = out.height * rh) :
    ∃ st k, Pooling.forward lowest rw rh input ((mx, my), out) = some st ∧
      (DeviceKernels.maxForward lowest rw rh input out).Gives (memOf [out.data, mask.data, input.data] [])
        (memOf [st.2.data, k, input.data] []) := by
  obtain ⟨mx', my', out', g1, _, _, g4, _, _, g7, g8⟩ :=
    Pooling.forward_spec (lowest := lowest) hi hmx hmy ho h1 h2 hs hmaps hw hh
  obtain ⟨k, k1, k2, k3⟩ := exists_tensor input (fun x y m s =>
    if x % rw = (poolScan lowest input rw rh rw rh (x / rw) (y / rh) m s).2.1 ∧
      y % rh = (poolScan lowest input rw rh rw rh (x / rw) (y / rh) m s).2.2 then (1 : R) else 0)
  refine ⟨_, k.data, g1, DeviceKernels.maxForward_gives lowest hrw hrh hi ho hm hmi hs hmaps hw hh g7 g4 k2 k1
    (fun ox oy m s hin => ?_) k3⟩
  obtain ⟨r, f1, f2, _⟩ := g8 ox oy m s hin
  rw [f2, found_scan_eq f1]
  intro i j a b
  obtain ⟨i1, i2, i3, i4⟩ := hin
  exact get_eq_val hi ⟨by rw [hw]; exact radix_lt i1 a, by rw [hh]; exact radix_lt i2 b, by omega, by omega⟩

/-- C80, max pooling forward and backward: on the device every delta goes to exactly one position, the
first one in row order with the greatest value of its region; all other positions get zero.  Unlike
the host's version (C39_gradient_partial) this needs neither a value above the start value in every region
nor a bound on the size of the image. -/
theorem C80_max_pooling_gradient [LinearOrder R] [CommRing R] (lowest : R) (input out mask d dx : Tensor R)
    (rw rh : Nat) (hrw : 0 < rw) (hrh : 0 < rh) (hi : input.WF) (ho : out.WF) (hm : mask.WF)
    (hmi : Sh input mask) (hs : out.samples = input.samples) (hmaps : out.maps = input.maps)
    (hw : input.width = out.width * rw) (hh : input.height = out.height * rh)
    (hd : d.WF) (hdx : dx.WF) (hd1 : Sh out d) (hd2 : Sh input dx) (hlow : ∀ v ∈ input.data, lowest ≤ v) :
    ∃ u k q : Tensor R,
      (DeviceKernels.maxForward lowest rw rh input out).Gives (memOf [out.data, mask.data, input.data] [])
        (memOf [u.data, k.data, input.data] []) ∧
      (DeviceKernels.maxBackward rw rh dx d).Gives (memOf [dx.data, k.data, d.data] [])
        (memOf [q.data, k.data, d.data] []) ∧ Sh out u ∧ Sh input q ∧
      (∀ ox oy m s, out.InRange ox oy m s → ∃ v, u.get ox oy m s = some v ∧
        RegionMax input (ox * rw) (oy * rh) rw rh m s v) ∧
      ∃ px py : Nat → Nat → Nat → Nat → Nat,
        (∀ ox oy m s, out.InRange ox oy m s →
          FirstOfRegion input (ox * rw) (oy * rh) rw rh m s (px ox oy m s) (py ox oy m s)) ∧
        ∀ x y m s, input.InRange x y m s → q.get x y m s =
          some (if px (x / rw) (y / rh) m s = x ∧ py (x / rw) (y / rh) m s = y then
            d.val (x / rw) (y / rh) m s else 0) := by
  obtain ⟨u, u1, u2, u3⟩ := exists_tensor out (fun ox oy m s =>
    (poolScan lowest input rw rh rw rh ox oy m s).1)
  obtain ⟨k, k1, k2, k3⟩ := exists_tensor input (fun x y m s =>
    if x % rw = (poolScan lowest input rw rh rw rh (x / rw) (y / rh) m s).2.1 ∧
      y % rh = (poolScan lowest input rw rh rw rh (x / rw) (y / rh) m s).2.2 then (1 : R) else 0)
  obtain ⟨q, q1, q2, q3⟩ := exists_tensor dx (fun x y m s =>
    k.val x y m s * d.val (x / rw) (y / rh) m s)
  have hin : ∀ ox oy m s, out.InRange ox oy m s → ∀ i j, i < rw → j < rh →
      input.InRange (ox * rw + i) (oy * rh + j) m s := by
    rintro ox oy m s ⟨i1, i2, i3, i4⟩ i j a b
    exact ⟨by rw [hw]; exact radix_lt i1 a, by rw [hh]; exact radix_lt i2 b, by omega, by omega⟩
  have hfirst := fun ox oy m s (h : out.InRange ox oy m s) => poolScan_first (lowest := lowest) (sw := rw)
    (sh := rh) (ox := ox) (oy := oy) hrw hrh (fun i j a b => get_eq_val hi (hin ox oy m s h i j a b))
    (fun i j a b => hlow _ (by
      have := get_eq_val hi (hin ox oy m s h i j a b)
      rw [DeviceKernels.get_eq_at] at this
      exact List.mem_of_getElem? this))
  refine ⟨u, k, q, DeviceKernels.maxForward_gives lowest hrw hrh hi ho hm hmi hs hmaps hw hh u2 u1 k2 k1 u3 k3,
    DeviceKernels.maxBackward_gives hdx k2 hd (hd2.symm.trans k1) ?_ ?_ ?_ ?_ q2 q1 q3, u1, hd2.trans q1, ?_,
    fun ox oy m s => ox * rw + (poolScan lowest input rw rh rw rh ox oy m s).2.1,
    fun ox oy m s => oy * rh + (poolScan lowest input rw rh rw rh ox oy m s).2.2, ?_, ?_⟩
  · have := hd1.1; have := hd2.1; omega
  · have := hd1.2.2.2; have := hd2.2.2.2; omega
  · rw [← hd1.2.1, ← hd2.2.1]; exact hw
  · rw [← hd1.2.2.1, ← hd2.2.2.1]; exact hh
  · intro ox oy m s h
    exact ⟨_, u3 ox oy m s h, (hfirst ox oy m s h).2⟩
  · intro ox oy m s h
    exact (hfirst ox oy m s h).1
  · intro x y m s h
    rw [q3 x y m s (hd2.inRange.2 h), val_of_get (k3 x y m s h)]
    have e1 := Nat.div_add_mod x rw
    have e2 := Nat.div_add_mod y rh
    rw [Nat.mul_comm] at e1 e2
    have hiff : (x % rw = (poolScan lowest input rw rh rw rh (x / rw) (y / rh) m s).2.1 ∧
        y % rh = (poolScan lowest input rw rh rw rh (x / rw) (y / rh) m s).2.2) ↔
        (x / rw * rw + (poolScan lowest input rw rh rw rh (x / rw) (y / rh) m s).2.1 = x ∧
        y / rh * rh + (poolScan lowest input rw rh rw rh (x / rw) (y / rh) m s).2.2 = y) := by omega
    by_cases hc : x % rw = (poolScan lowest input rw rh rw rh (x / rw) (y / rh) m s).2.1 ∧
        y % rh = (poolScan lowest input rw rh rw rh (x / rw) (y / rh) m s).2.2
    · rw [if_pos hc, if_pos (hiff.1 hc), one_mul]
    · rw [if_neg hc, if_neg fun h => hc (hiff.2 h), zero_mul]

/-- C80, advanced max pooling: the device computes the host's outputs; and on the device every input
position gets the sum of the deltas of exactly those outputs in whose window it is the first greatest value
in row order.  Unlike the host's version (C40_gradient_partial) this holds for images of every
size. -/
theorem C80_advanced_pooling [LinearOrder R] [CommRing R] (lowest : R) (input out d dx : Tensor R)
    (mask : Tensor Nat) (rw rh sw sh : Nat) (hrw : 0 < rw) (hrh : 0 < rh) (hsw : 0 < sw) (hsh : 0 < sh)
    (hi : input.WF) (ho : out.WF) (hm : mask.WF) (hmo : Sh out mask)
    (hs : out.samples = input.samples) (hmaps : out.maps = input.maps)
    (hw : ∀ ox, ox < out.width → ox * sw + rw ≤ input.width)
    (hh : ∀ oy, oy < out.height → oy * sh + rh ≤ input.height)
    (hd : d.WF) (hdx : dx.WF) (hd1 : Sh out d) (hd2 : Sh input dx) (hlow : ∀ v ∈ input.data, lowest ≤ v) :
    ∃ (st : Tensor Nat × Tensor R) (k : Tensor Nat) (q : Tensor R),
      Pooling.advForward lowest rw rh sw sh input (mask, out) = some st ∧
      (DeviceKernels.advForward lowest rw rh sw sh input out).Gives (memOf [out.data, input.data] [mask.data])
        (memOf [st.2.data, input.data] [k.data]) ∧
      (DeviceKernels.advBackward rw rh sw sh dx d).Gives (memOf [dx.data, d.data] [k.data])
        (memOf [q.data, d.data] [k.data]) ∧ Sh input q ∧
      ∃ px py : Nat → Nat → Nat → Nat → Nat,
        (∀ ox oy m s, out.InRange ox oy m s →
          FirstOfRegion input (ox * sw) (oy * sh) rw rh m s (px ox oy m s) (py ox oy m s)) ∧
        ∀ x y m s, input.InRange x y m s → q.get x y m s =
          some (∑ oy ∈ Finset.range out.height, ∑ ox ∈ Finset.range out.width,
            if px ox oy m s = x ∧ py ox oy m s = y then d.val ox oy m s else 0) := by
  obtain ⟨mask', out', g1, g2, g3, g4, g5, g6⟩ :=
    Pooling.advForward_spec (lowest := lowest) hi hm ho hmo hs hmaps hw hh
  obtain ⟨k, k1, k2, k3⟩ := exists_tensor mask (fun ox oy m s =>
    (oy * sh + (poolScan lowest input rw rh sw sh ox oy m s).2.2) * input.width +
        (ox * sw + (poolScan lowest input rw rh sw sh ox oy m s).2.1))
  obtain ⟨q, q1, q2, q3⟩ := exists_tensor dx (fun x y m s =>
    ∑ oy ∈ Finset.range d.height, ∑ ox ∈ Finset.range d.width,
      if ox * sw + (poolScan lowest input rw rh sw sh ox oy m s).2.1 = x ∧
        oy * sh + (poolScan lowest input rw rh sw sh ox oy m s).2.2 = y then d.val ox oy m s else 0)
  have hin : ∀ ox oy m s, out.InRange ox oy m s → ∀ i j, i < rw → j < rh →
      input.InRange (ox * sw + i) (oy * sh + j) m s := by
    rintro ox oy m s ⟨i1, i2, i3, i4⟩ i j a b
    have := hw ox i1
    have := hh oy i2
    exact ⟨by omega, by omega, by omega, by omega⟩
  have hget := fun ox oy m s (h : out.InRange ox oy m s) i j a b => get_eq_val hi (hin ox oy m s h i j a b)
  have hfirst := fun ox oy m s (h : out.InRange ox oy m s) => poolScan_first (lowest := lowest) (sw := sw)
    (sh := sh) (ox := ox) (oy := oy) hrw hrh (hget ox oy m s h)
    (fun i j a b => hlow _ (by
      have := hget ox oy m s h i j a b
      rw [DeviceKernels.get_eq_at] at this
      exact List.mem_of_getElem? this))
  refine ⟨_, k, q, g1, DeviceKernels.advForward_gives lowest hi ho hm hmo hs hmaps hw hh g5 g3 k2 (hmo.trans k1)
      (fun ox oy m s h => ?_) (fun ox oy m s h => k3 ox oy m s (hmo.inRange.2 h)),
    DeviceKernels.advBackward_gives hsw hsh hdx k2 hd (hd1.symm.trans (hmo.trans k1)) ?_ ?_ q2 q1
      (fun ox oy m s => ox * sw + (poolScan lowest input rw rh sw sh ox oy m s).2.1)
      (fun ox oy m s => oy * sh + (poolScan lowest input rw rh sw sh ox oy m s).2.2) ?_ q3,
    hd2.trans q1, fun ox oy m s => ox * sw + (poolScan lowest input rw rh sw sh ox oy m s).2.1,
    fun ox oy m s => oy * sh + (poolScan lowest input rw rh sw sh ox oy m s).2.2,
    fun ox oy m s h => (hfirst ox oy m s h).1, fun x y m s h => ?_⟩
  · obtain ⟨r, f1, f2, _⟩ := g6 ox oy m s h
    rw [f2, found_scan_eq f1 (hget ox oy m s h)]
  · have := hd1.1; have := hd2.1; omega
  · have := hd1.2.2.2; have := hd2.2.2.2; omega
  · intro ox oy m s h
    have h' : out.InRange ox oy m s := hd1.inRange.1 h
    obtain ⟨v, hv, p1, p2, _⟩ := (hfirst ox oy m s h').1
    have := hw ox h'.1
    have e := hd2.2.1
    refine ⟨?_, by omega, p1, p2⟩
    rw [k3 ox oy m s (hmo.inRange.2 h'), ← hd2.2.1]
  · rw [q3 x y m s (hd2.inRange.2 h), ← hd1.2.1, ← hd1.2.2.1]

/-- C80, violated: if a region holds its greatest value twice, host and device may send the delta to
different positions.  The host goes through the columns, the device through the rows. -/
theorem C80_tie_differs :
    (Pooling.forward (-10 : Int) 2 2 ⟨1, 2, 2, 1, [1, 5, 5, 1]⟩
        ((⟨1, 1, 1, 1, [0]⟩, ⟨1, 1, 1, 1, [0]⟩), ⟨1, 1, 1, 1, [0]⟩)).bind
      (fun r => (Pooling.backward r.1.1 r.1.2 (⟨1, 1, 1, 1, [3]⟩ : Tensor Int)
        ⟨1, 2, 2, 1, [0, 0, 0, 0]⟩).map fun dx => (r.2.data, dx.data)) = some ([5], [0, 0, 3, 0]) ∧
    ∃ k : List Int,
      (DeviceKernels.maxForward (-10 : Int) 2 2 ⟨1, 2, 2, 1, [1, 5, 5, 1]⟩ ⟨1, 1, 1, 1, [0]⟩).Gives
        (memOf [[0], [0, 0, 0, 0], [1, 5, 5, 1]] []) (memOf [[5], k, [1, 5, 5, 1]] []) ∧
      (DeviceKernels.maxBackward 2 2 (⟨1, 2, 2, 1, [0, 0, 0, 0]⟩ : Tensor Int) ⟨1, 1, 1, 1, [3]⟩).Gives
        (memOf [[0, 0, 0, 0], k, [3]] []) (memOf [[0, 3, 0, 0], k, [3]] []) := by
  refine ⟨by decide +kernel, ?_⟩
  refine ⟨[0, 1, 0, 0], ?_, ?_⟩
  · exact DeviceKernels.maxForward_gives (-10 : Int) (input := ⟨1, 2, 2, 1, [1, 5, 5, 1]⟩)
      (output := ⟨1, 1, 1, 1, [0]⟩) (mask := ⟨1, 2, 2, 1, [0, 0, 0, 0]⟩) (u := ⟨1, 1, 1, 1, [5]⟩)
      (k := ⟨1, 2, 2, 1, [0, 1, 0, 0]⟩) (rw := 2) (rh := 2) (by omega) (by omega) rfl rfl rfl
      ⟨rfl, rfl, rfl, rfl⟩ rfl rfl rfl rfl rfl ⟨rfl, rfl, rfl, rfl⟩ rfl ⟨rfl, rfl, rfl, rfl⟩
      (by
        rintro ox oy m s ⟨h1, h2, h3, h4⟩
        simp only [] at h1 h2 h3 h4
        obtain rfl : ox = 0 := by omega
        obtain rfl : oy = 0 := by omega
        obtain rfl : m = 0 := by omega
        obtain rfl : s = 0 := by omega
        decide +kernel)
      (by
        rintro x y m s ⟨h1, h2, h3, h4⟩
        simp only [] at h1 h2 h3 h4
        obtain rfl : m = 0 := by omega
        obtain rfl : s = 0 := by omega
        obtain rfl | rfl : x = 0 ∨ x = 1 := by omega
        all_goals
          obtain rfl | rfl : y = 0 ∨ y = 1 := by omega
          all_goals decide +kernel)
  · exact DeviceKernels.maxBackward_gives (inputDelta := (⟨1, 2, 2, 1, [0, 0, 0, 0]⟩ : Tensor Int))
      (outputDelta := ⟨1, 1, 1, 1, [3]⟩) (mask := ⟨1, 2, 2, 1, [0, 1, 0, 0]⟩)
      (q := ⟨1, 2, 2, 1, [0, 3, 0, 0]⟩) (rw := 2) (rh := 2) rfl rfl rfl
      ⟨rfl, rfl, rfl, rfl⟩ rfl rfl rfl rfl rfl ⟨rfl, rfl, rfl, rfl⟩
      (by
        rintro x y m s ⟨h1, h2, h3, h4⟩
        simp only [] at h1 h2 h3 h4
        obtain rfl : m = 0 := by omega
        obtain rfl : s = 0 := by omega
        obtain rfl | rfl : x = 0 ∨ x = 1 := by omega
        all_goals
          obtain rfl | rfl : y = 0 ∨ y = 1 := by omega
          all_goals decide +kernel)

/-! ### Concrete cases -/

/-- The work items of a launch one after the other. -/
def inTurn (l : Launch R) (m : Mem (Cell R)) : Option (Mem (Cell R)) :=
  forLoop l.items (fun i m => ((l.item i).run m).map Prod.snd) m

/-- Two samples of two maps: the second sample is filled. -/
example : (inTurn (DeviceKernels.setSample (⟨2, 1, 1, 2, [1, 2, 3, 4]⟩ : Tensor Int) (some 1) 9)
    (memOf [[1, 2, 3, 4]] [])).map (fun m => m (.val 0)) = some [1, 2, 9, 9] := by decide +kernel

/-- Two samples of three maps: the last map of the first sample is left. -/
example : (inTurn (DeviceKernels.setSample (⟨2, 1, 1, 3, [1, 2, 3, 4, 5, 6]⟩ : Tensor Int) (some 0) 9)
    (memOf [[1, 2, 3, 4, 5, 6]] [])).map (fun m => m (.val 0)) = some [9, 9, 3, 4, 5, 6] := by decide +kernel

/-- Two samples of one map: out of the buffer. -/
example : (inTurn (DeviceKernels.setSample (⟨2, 1, 1, 1, [1, 2]⟩ : Tensor Int) (some 1) 9)
    (memOf [[1, 2]] [])).isNone = true := by decide +kernel

example : (inTurn (DeviceKernels.sms (⟨3, 1, 2, 2, List.replicate 12 0⟩ : Tensor Int))
    (memOf [List.replicate 12 0, [1, 2, 3, 4, 5, 6, 7, 8, 9, 10, 11, 12]] [])).map (fun m => m (.val 0)) =
    some [1, 2, 7, 8, 3, 4, 9, 10, 5, 6, 11, 12] := by decide +kernel

example : (inTurn (DeviceKernels.down (⟨1, 4, 2, 1, [1, 2, 3, 4, 5, 6, 7, 8]⟩ : Tensor Int)
      ⟨1, 2, 1, 1, [0, 0]⟩ 2 2 3) (memOf [[0, 0], [1, 2, 3, 4, 5, 6, 7, 8]] [])).map (fun m => m (.val 0)) =
    some [42, 66] := by decide +kernel

example : (inTurn (DeviceKernels.up (⟨1, 2, 1, 1, [5, 6]⟩ : Tensor Int) ⟨1, 4, 1, 1, [0, 0, 0, 0]⟩ 2 1 3)
    (memOf [[0, 0, 0, 0], [5, 6]] [])).map (fun m => m (.val 0)) = some [15, 15, 18, 18] := by decide +kernel

example : (inTurn (DeviceKernels.im2col (R := Int) exampleShape)
    (memOf [List.replicate 16 7, [1, 2, 3, 4, 5, 6]] [])).map (fun m => m (.val 0)) =
    some [0, 1, 2, 3, 1, 2, 3, 0, 0, 4, 5, 6, 4, 5, 6, 0] := by decide +kernel

/-- A 3x3 convolution of a 2x2 image with padding 1: every pixel lies in four windows. -/
example : (TensorMath.ColShape.mk 2 2 1 1 3 3 1 1 1 1).FitsSource (⟨1, 2, 2, 1, [1, 2, 3, 4]⟩ : Tensor Int) ∧
    (TensorMath.ColShape.mk 2 2 1 1 3 3 1 1 1 1).FitsTarget (⟨9, 2, 2, 1, List.replicate 36 1⟩ : Tensor Int) ∧
    (inTurn (DeviceKernels.col2im (R := Int) (TensorMath.ColShape.mk 2 2 1 1 3 3 1 1 1 1))
      (memOf [[1, 2, 3, 4], List.replicate 36 1] [])).map (fun m => m (.val 0)) = some [4, 4, 4, 4] := by
  unfold TensorMath.ColShape.FitsSource TensorMath.ColShape.FitsTarget
  decide +kernel

/-- The target of one element is too small for the sixteen of the shape. -/
example : 0 < exampleShape.targetWidth ∧ 0 < exampleShape.targetHeight ∧ 0 < exampleShape.targetMaps ∧
    ((⟨1, 1, 1, 1, [0]⟩ : Tensor Int).elements : Int) < exampleShape.targetSize := by decide +kernel

/-- The gradient of the sigmoid with outputs 1/2 and 1/4. -/
example : Activations.sigmoidBackward (⟨1, 2, 1, 1, [0, -1]⟩ : Tensor ℚ) ⟨1, 2, 1, 1, [1 / 2, 1 / 4]⟩
      ⟨1, 2, 1, 1, [4, 16]⟩ ⟨1, 2, 1, 1, [7, 7]⟩ = some ⟨1, 2, 1, 1, [1, 3]⟩ ∧
    (inTurn (DeviceKernels.activationBackward (fun y dy => dy * y * (1 - y)) (⟨1, 2, 1, 1, [0, -1]⟩ : Tensor ℚ))
      (memOf [[7, 7], [1 / 2, 1 / 4], [4, 16]] [])).map (fun m => m (.val 0)) = some [1, 3] := by decide +kernel

/-- Two 2x2 regions side by side, with a tie in the second. -/
example : ((inTurn (DeviceKernels.maxForward (-10 : Int) 2 2 ⟨1, 4, 2, 1, [1, 2, 7, 7, 9, 4, 5, 7]⟩
      ⟨1, 2, 1, 1, [0, 0]⟩) (memOf [[0, 0], List.replicate 8 5, [1, 2, 7, 7, 9, 4, 5, 7]] [])).bind fun m =>
    (inTurn (DeviceKernels.maxBackward 2 2 (⟨1, 4, 2, 1, List.replicate 8 1⟩ : Tensor Int)
      ⟨1, 2, 1, 1, [3, 4]⟩) (memOf [List.replicate 8 1, m (.val 1), [3, 4]] [])).map fun m' =>
    (m (.val 0), m' (.val 0))) = some ([9, 7], [0, 0, 4, 0, 3, 0, 0, 0]) := by decide +kernel

/-- Two overlapping windows with the same greatest value. -/
example : ((inTurn (DeviceKernels.advForward (-10 : Int) 2 1 1 1 ⟨1, 3, 1, 1, [1, 7, 5]⟩
      ⟨1, 2, 1, 1, [0, 0]⟩) (memOf [[0, 0], [1, 7, 5]] [[0, 0]])).bind fun m =>
    (inTurn (DeviceKernels.advBackward 2 1 1 1 (⟨1, 3, 1, 1, [1, 1, 1]⟩ : Tensor Int)
      ⟨1, 2, 1, 1, [3, 4]⟩) (memOf [[1, 1, 1], [3, 4]] [m (.idx 0)])).map fun m' =>
    (m (.val 0), m' (.val 0))) = some ([7, 7], [0, 7, 0]) := by decide +kernel

end CN24.Props
