import Verif.Proof.NetChain
import Verif.Props.PatchDataset

/-
C84: a network trained on patches computes, for the pixels of a whole image, what it computes for the
patches of the image.
-/

namespace CN24.Props
open CN24 CN24.Tensor CN24.Config CN24.NetConfig CN24.NetEval
variable {R : Type _} [Field R] [LinearOrder R]

/-- The layers between the border and the enlargement. -/
theorem core_local (env : Env R) (items : List Item) (classes m : Nat)
    (hok : ∀ i ∈ items, i.Ok) (hx : ∀ g ∈ geoX items, g.Plain) (hy : ∀ g ∈ geoY items, g.Plain)
    (hfit : Fits env.parameters 0 m items) :
    LocalMap (fun mode => evalAll env mode (describedLayers 0 1 0 items ++ [if classes = 1 then .tanh else .sigmoid]))
      (field (geoX items)) (total (geoX items)) (field (geoY items)) (total (geoY items)) m
      (mapsOf items m) := by
  have h1 := chain_local env items 0 m hok hx hy hfit
  obtain ⟨a1, a2, -⟩ := local_act env (mapsOf items m)
  have h2 : LocalMap (fun mode => evalAll env mode [if classes = 1 then .tanh else .sigmoid]) 0 1 0 1 (mapsOf items m)
      (mapsOf items m) := by
    simp only [evalAll_one]
    split
    · exact a2
    · exact a1
  have := h1.comp h2 (total_pos (geoX_ok hok)) (total_pos (geoY_ok hok)) (by omega) (by omega)
  simp only [Nat.mul_zero, Nat.add_zero, Nat.mul_one] at this
  have e : (fun mode t => (evalAll env mode (describedLayers 0 1 0 items) t).bind
      (evalAll env mode [if classes = 1 then .tanh else .sigmoid])) =
      fun mode => evalAll env mode (describedLayers 0 1 0 items ++ [if classes = 1 then .tanh else .sigmoid]) := by
    funext mode t
    rw [evalAll_append]
  rw [e] at this
  exact this

/-- The factory in patch mode and for whole images. -/
theorem factories (items : List Item) (hok : ∀ i ∈ items, i.Ok) (hnl : ∀ i ∈ items, '\n' ∉ i.text)
    (hm : Item.patches ∈ items)
    (bx : field (geoX items) + total (geoX items) < 2147483648)
    (by' : field (geoY items) + total (geoY items) < 2147483648) :
    construct (linesOf (descriptionText items)) true = .done ⟨.patch, (field (geoX items) + total (geoX items) : Nat),
      (field (geoY items) + total (geoY items) : Nat), (total (geoX items) : Nat), (total (geoY items) : Nat), false⟩ ∧
    construct (linesOf (descriptionText items)) false = .done ⟨.fcn, (field (geoX items) : Nat),
      (field (geoY items) : Nat), (total (geoX items) : Nat), (total (geoY items) : Nat), false⟩ := by
  have hc := construct_items true items hok (by omega) (by omega)
  have hc' := construct_items false items hok (by omega) (by omega)
  have hmeth : methodOf true items .fcn = .patch := by unfold methodOf; rw [if_pos ⟨rfl, hm⟩]
  have hmeth' : methodOf false items .fcn = .fcn := by unfold methodOf; rw [if_neg (by simp)]
  rw [hmeth] at hc
  rw [hmeth'] at hc'
  simp only [if_true, if_neg (show ¬ Method.fcn = Method.patch by decide)] at hc hc'
  rw [← descriptionLines hnl] at hc hc'
  exact ⟨hc, hc'⟩

/-- The image with its border. -/
theorem border_eval (env : Env R) (mode : Mode R) (fx fy : Nat) (hborder : 0 < fx ↔ 0 < fy) {t : Tensor R}
    {ss w h m : Nat} (ht : t.Is ss w h m) :
    ∃ o, evalAll env mode (if 0 < (fx : Int) ∧ 0 < (fy : Int) then [.resize fx fy] else []) t = .done o ∧
      o.Is ss (fx + w) (fy + h) m ∧
      ∀ x y k s, x < fx + w → y < fy + h → k < m → s < ss →
        o.val x y k s = pixel t ((x : Int) - (fx / 2 : Nat)) ((y : Int) - (fy / 2 : Nat)) k s := by
  by_cases h0 : 0 < fx
  · have h0' := hborder.1 h0
    rw [if_pos (by omega), evalAll_one, Nat.add_comm fx, Nat.add_comm fy]
    exact resize_eval env mode fx fy ht
  · obtain rfl : fx = 0 := by omega
    obtain rfl : fy = 0 := by omega
    rw [if_neg (by omega), Nat.zero_add, Nat.zero_add]
    refine ⟨t, rfl, ht, ?_⟩
    intro x y k s hx hy hk hs
    unfold pixel
    rw [ht.2.1, ht.2.2.1, if_pos (by omega)]
    congr 1 <;> omega

/-- The enlargement. -/
theorem enlarge_eval (env : Env R) (mode : Mode R) {fx fy : Nat} (px : 0 < fx) (py : 0 < fy)
    (bx : fx ≤ 2147483647) (by' : fy ≤ 2147483647) {t : Tensor R} {ss w h m : Nat} (ht : t.Is ss w h m) :
    ∃ o, evalAll env mode (if ¬ ((fx : Int) = 1 ∧ (fy : Int) = 1) then
        [.upscale (toUInt (fx : Int)) (toUInt (fy : Int))] else []) t = .done o ∧
      o.Is ss (fx * w) (fy * h) m ∧
      ∀ x y k s, x < fx * w → y < fy * h → k < m → s < ss → o.val x y k s = t.val (x / fx) (y / fy) k s := by
  by_cases h0 : (fx : Int) = 1 ∧ (fy : Int) = 1
  · obtain rfl : fx = 1 := by omega
    obtain rfl : fy = 1 := by omega
    rw [if_neg (not_not.2 h0), Nat.one_mul, Nat.one_mul]
    exact ⟨t, rfl, ht, fun x y k s _ _ _ _ => by rw [Nat.div_one, Nat.div_one]⟩
  · rw [if_pos h0, evalAll_one, toUInt_natCast bx, toUInt_natCast by']
    exact upscale_eval env mode px py ht

/-- C84: take any description of a chain of convolutions, fully connected layers, poolings and
activations in patch mode, any parameters and any images whose size is a multiple of the reduction.  The
net made for whole images gives an output of the size of the image, and its value at every pixel is the
one output value of the net made for patches, applied to the patch (of the size that net reports) that is
cut from the image, extended by zeros, at the pixel rounded down to the reduction, less half of the border.
It does not matter what else is in the batch, what the memory of the outputs held before and whether the
nets are in training or testing mode.
Missing for the full property: padded convolutions (`C84_padding_differs`) and borders in one direction
only (C56). -/
theorem C84_image_is_patches_partial (env : Env R) (conv conv' : Str → R) (items : List Item) (mode mode' : Mode R)
    (classes nx ny ss m : Nat) (image : Tensor R)
    (hok : ∀ i ∈ items, i.Ok) (hnl : ∀ i ∈ items, '\n' ∉ i.text) (hm : Item.patches ∈ items)
    (hx : ∀ g ∈ geoX items, g.Plain) (hy : ∀ g ∈ geoY items, g.Plain)
    (hborder : 0 < field (geoX items) ↔ 0 < field (geoY items))
    (hnx : 0 < nx) (hny : 0 < ny)
    (bx : field (geoX items) + total (geoX items) * nx < 2147483648)
    (by' : field (geoY items) + total (geoY items) * ny < 2147483648)
    (hfit : Fits env.parameters 0 m items)
    (himage : image.Is ss (total (geoX items) * nx) (total (geoY items) * ny) m) :
    ∃ f out, construct (linesOf (descriptionText items)) true = .done f ∧
      predict env conv (linesOf (descriptionText items)) false mode classes [image] = .done out ∧
      out.Is ss (total (geoX items) * nx) (total (geoY items) * ny) (mapsOf items m) ∧
      ∀ (patch : Tensor R) (ps X Y s q : Nat), patch.Is ps f.rfx.toNat f.rfy.toNat m →
        X < total (geoX items) * nx → Y < total (geoY items) * ny → s < ss → q < ps →
        (∀ i j k : Nat, i < f.rfx.toNat → j < f.rfy.toNat → k < m → patch.val i j k q =
          pixel image
            (((total (geoX items) * (X / total (geoX items)) + i : Nat) : Int) - (field (geoX items) / 2 : Nat))
            (((total (geoY items) * (Y / total (geoY items)) + j : Nat) : Int) - (field (geoY items) / 2 : Nat)) k s) →
        ∃ o, predict env conv' (linesOf (descriptionText items)) true mode' classes [patch] = .done o ∧
          o.Is ps 1 1 (mapsOf items m) ∧
          ∀ k < mapsOf items m, o.val 0 0 k q = out.val X Y k s := by
  have tx := total_pos (geoX_ok hok)
  have ty := total_pos (geoY_ok hok)
  have ux := Nat.le_mul_of_pos_right (total (geoX items)) hnx
  have uy := Nat.le_mul_of_pos_right (total (geoY items)) hny
  obtain ⟨hc, hc'⟩ := factories items hok hnl hm (by omega) (by omega)
  obtain ⟨G, hG, hev⟩ := core_local env items classes m hok hx hy hfit
  obtain ⟨t1, a1, a2, a3⟩ := border_eval env mode _ _ hborder himage
  obtain ⟨t2, b1, b2, b3⟩ := hev mode t1 ss nx ny hnx hny bx by' a2
  dsimp only at b1
  obtain ⟨out, c1, c2, c3⟩ := enlarge_eval env mode tx ty (by omega) (by omega) b2
  have hall : evalAll env mode (netLayers 0 1 ⟨.fcn, (field (geoX items) : Nat), (field (geoY items) : Nat),
      (total (geoX items) : Nat), (total (geoY items) : Nat), false⟩ classes items) image = .done out := by
    unfold netLayers
    simp only [true_and, Int.toNat_natCast]
    rw [evalAll_append env mode (_ ++ _ ++ _), List.append_assoc, evalAll_append, a1,
      Outcome.bind_done, b1, Outcome.bind_done, c1]
  refine ⟨_, out, hc, predict_chain env conv items false mode classes _ hok hnl hc' image out hall, c2, ?_⟩
  intro patch ps X Y s q hp hX hY hs hq hpatch
  simp only [Int.toNat_natCast] at hp hpatch
  obtain ⟨o, d1, d2, d3⟩ := hev mode' patch ps 1 1 (by omega) (by omega) (by omega) (by omega)
    (by rw [Nat.mul_one, Nat.mul_one]; exact hp)
  have hpall : evalAll env mode' (netLayers 0 1 ⟨.patch, (field (geoX items) + total (geoX items) : Nat),
      (field (geoY items) + total (geoY items) : Nat), (total (geoX items) : Nat), (total (geoY items) : Nat), false⟩
      classes items) patch = .done o := by
    unfold netLayers
    simp only [show ¬ Method.patch = Method.fcn by decide, false_and, if_false, List.nil_append, List.append_nil]
    exact d1
  refine ⟨o, predict_chain env conv' items true mode' classes _ hok hnl hc patch o hpall, d2, ?_⟩
  intro k hk
  have hX' : X / total (geoX items) < nx := Nat.div_lt_of_lt_mul hX
  have hY' : Y / total (geoY items) < ny := Nat.div_lt_of_lt_mul hY
  rw [d3 0 0 k q (by omega) (by omega) hk hq, c3 X Y k s hX hY hk hs, b3 _ _ k s hX' hY' hk hs]
  refine hG _ _ (fun i j c hi hj hc => ?_) _ hk
  have e1 := Nat.mul_le_mul_left (total (geoX items)) (show X / total (geoX items) + 1 ≤ nx from hX')
  have e2 := Nat.mul_le_mul_left (total (geoY items)) (show Y / total (geoY items) + 1 ≤ ny from hY')
  rw [Nat.mul_add] at e1 e2
  rw [a3 _ _ c s (by omega) (by omega) hc hs, Nat.mul_zero, Nat.mul_zero, Nat.zero_add, Nat.zero_add]
  exact hpatch i j c hi hj hc

/-- The value of a sample, in the output for the whole image. -/
theorem sample_value (env : Env R) (conv conv' : Str → R) (items : List Item) (mode mode' : Mode R)
    (classes nx ny m : Nat) (image lab : Tensor R)
    (hok : ∀ i ∈ items, i.Ok) (hnl : ∀ i ∈ items, '\n' ∉ i.text) (hm : Item.patches ∈ items)
    (hx : ∀ g ∈ geoX items, g.Plain) (hy : ∀ g ∈ geoY items, g.Plain)
    (hborder : 0 < field (geoX items) ↔ 0 < field (geoY items))
    (hnx : 0 < nx) (hny : 0 < ny)
    (bx : field (geoX items) + total (geoX items) * nx < 2147483648)
    (by' : field (geoY items) + total (geoY items) * ny < 2147483648)
    (hfit : Fits env.parameters 0 m items)
    (himage : image.Is 1 (total (geoX items) * nx) (total (geoY items) * ny) m)
    (f : Fields) (hf : construct (linesOf (descriptionText items)) true = .done f)
    (ef : Nat → Nat → Nat → Nat → R) (cw : List R) (col row q ps : Nat) (old o : Outputs R)
    (hd : o.data.Is ps f.rfx.toNat f.rfy.toNat m) (hq : q < ps)
    (hcol : col + f.rfx.toNat ≤ image.width) (hrow : row + f.rfy.toNat ≤ image.height)
    (hh : HoldsPatch ef cw f.rfx.toNat f.rfy.toNat image lab col row q old o) :
    f.rfx.toNat = field (geoX items) + total (geoX items) ∧ f.rfy.toNat = field (geoY items) + total (geoY items) ∧
    ∃ out p, predict env conv (linesOf (descriptionText items)) false mode classes [image] = .done out ∧
      predict env conv' (linesOf (descriptionText items)) true mode' classes [o.data] = .done p ∧
      ∀ X Y, X < total (geoX items) * nx → Y < total (geoY items) * ny →
        total (geoX items) * (X / total (geoX items)) = col + field (geoX items) / 2 →
        total (geoY items) * (Y / total (geoY items)) = row + field (geoY items) / 2 →
        ∀ k < mapsOf items m, ∃ v, p.get 0 0 k q = some v ∧ out.get X Y k 0 = some v := by
  have tx := total_pos (geoX_ok hok)
  have ty := total_pos (geoY_ok hok)
  have ux := Nat.le_mul_of_pos_right (total (geoX items)) hnx
  have uy := Nat.le_mul_of_pos_right (total (geoY items)) hny
  obtain ⟨f', out, h1, h2, h3, h4⟩ := C84_image_is_patches_partial env conv conv' items mode mode' classes nx ny 1 m
    image hok hnl hm hx hy hborder hnx hny bx by' hfit himage
  obtain rfl := Outcome.done.inj (hf.symm.trans h1)
  have hf' := Outcome.done.inj (hf.symm.trans (factories items hok hnl hm (by omega) (by omega)).1)
  have rx : f.rfx.toNat = field (geoX items) + total (geoX items) := by rw [hf']; exact Int.toNat_natCast _
  have ry : f.rfy.toNat = field (geoY items) + total (geoY items) := by rw [hf']; exact Int.toNat_natCast _
  rw [himage.2.1] at hcol
  rw [himage.2.2.1] at hrow
  have hcut : ∀ X Y, total (geoX items) * (X / total (geoX items)) = col + field (geoX items) / 2 →
      total (geoY items) * (Y / total (geoY items)) = row + field (geoY items) / 2 →
      ∀ i j k : Nat, i < f.rfx.toNat → j < f.rfy.toNat → k < m → o.data.val i j k q =
          pixel image
            (((total (geoX items) * (X / total (geoX items)) + i : Nat) : Int) - (field (geoX items) / 2 : Nat))
            (((total (geoY items) * (Y / total (geoY items)) + j : Nat) : Int) - (field (geoY items) / 2 : Nat)) k 0 := by
    intro X Y kx ky i j k hi hj hk
    have := hh.data i j k q ((inRange_of_is hd).2 ⟨hi, hj, hk, hq⟩)
    rw [if_pos rfl, get_eq_val himage.2.2.2.2 ((inRange_of_is himage).2 ⟨by omega, by omega, hk, by omega⟩)] at this
    rw [val_of_get this, kx, ky]
    unfold pixel
    rw [himage.2.1, himage.2.2.1, if_pos (by omega)]
    congr 1 <;> omega
  obtain ⟨G, hG, hev⟩ := core_local env items classes m hok hx hy hfit
  obtain ⟨p, d1, d2, -⟩ := hev mode' o.data ps 1 1 (by omega) (by omega) (by omega) (by omega)
    (by rw [Nat.mul_one, Nat.mul_one, ← rx, ← ry]; exact hd)
  have hp : predict env conv' (linesOf (descriptionText items)) true mode' classes [o.data] = .done p := by
    refine predict_chain env conv' items true mode' classes f hok hnl hf o.data p ?_
    rw [hf']
    unfold netLayers
    simp only [show ¬ Method.patch = Method.fcn by decide, false_and, if_false, List.nil_append, List.append_nil]
    exact d1
  refine ⟨rx, ry, out, p, h2, hp, ?_⟩
  intro X Y hX hY kx ky k hk
  obtain ⟨p', g1, g2, g3⟩ := h4 o.data ps X Y 0 q hd hX hY (by omega) hq (hcut X Y kx ky)
  obtain rfl := Outcome.done.inj (hp.symm.trans g1)
  refine ⟨p.val 0 0 k q, ?_, ?_⟩
  · exact get_eq_val g2.2.2.2.2 ((inRange_of_is g2).2 ⟨by omega, by omega, hk, hq⟩)
  · rw [g3 k hk]
    exact get_eq_val h3.2.2.2.2 ((inRange_of_is h3).2 ⟨by omega, by omega, hk, by omega⟩)

/-- C84, training: the value the net learns for a sample (patch and label of its centre, as fetched from the
dataset at a position that the reduction divides up to the border) is the value of the net for whole images
at the very pixel whose label the sample holds, if the patch lies in an image whose size is a multiple of the
reduction.  This needs a reduction, or a border that can be halved; see `C84_label_shifted`. -/
theorem C84_training_sample_partial (env : Env R) (conv conv' : Str → R) (items : List Item) (mode mode' : Mode R)
    (classes nx ny m : Nat) (image lab : Tensor R)
    (hok : ∀ i ∈ items, i.Ok) (hnl : ∀ i ∈ items, '\n' ∉ i.text) (hm : Item.patches ∈ items)
    (hx : ∀ g ∈ geoX items, g.Plain) (hy : ∀ g ∈ geoY items, g.Plain)
    (hborder : 0 < field (geoX items) ↔ 0 < field (geoY items))
    (hnx : 0 < nx) (hny : 0 < ny)
    (bx : field (geoX items) + total (geoX items) * nx < 2147483648)
    (by' : field (geoY items) + total (geoY items) * ny < 2147483648)
    (hfit : Fits env.parameters 0 m items)
    (himage : image.Is 1 (total (geoX items) * nx) (total (geoY items) * ny) m)
    (f : Fields) (hf : construct (linesOf (descriptionText items)) true = .done f)
    (ef : Nat → Nat → Nat → Nat → R) (cw : List R) (col row q ps : Nat) (old o : Outputs R)
    (hd : o.data.Is ps f.rfx.toNat f.rfy.toNat m) (hq : q < ps)
    (hcol : col + f.rfx.toNat ≤ image.width) (hrow : row + f.rfy.toNat ≤ image.height)
    (hh : HoldsPatch ef cw f.rfx.toNat f.rfy.toNat image lab col row q old o)
    (hgx : total (geoX items) ∣ col + field (geoX items) / 2)
    (hgy : total (geoY items) ∣ row + field (geoY items) / 2)
    (hcx : 2 ≤ total (geoX items) ∨ 2 ∣ field (geoX items))
    (hcy : 2 ≤ total (geoY items) ∨ 2 ∣ field (geoY items)) :
    ∃ out p, predict env conv (linesOf (descriptionText items)) false mode classes [image] = .done out ∧
      predict env conv' (linesOf (descriptionText items)) true mode' classes [o.data] = .done p ∧
      ∀ k < mapsOf items m, ∃ v,
        p.get 0 0 k q = some v ∧ out.get (col + f.rfx.toNat / 2) (row + f.rfy.toNat / 2) k 0 = some v := by
  obtain ⟨rx, ry, out, p, h1, h2, h3⟩ := sample_value env conv conv' items mode mode' classes nx ny m image lab hok hnl hm hx hy hborder hnx hny bx by'
    hfit himage f hf ef cw col row q ps old o hd hq hcol hrow hh
  refine ⟨out, p, h1, h2, ?_⟩
  rw [himage.2.1] at hcol
  rw [himage.2.2.1] at hrow
  have tx := total_pos (geoX_ok hok)
  have ty := total_pos (geoY_ok hok)
  have key : ∀ {F T c : Nat}, 0 < T → T ∣ c + F / 2 → (2 ≤ T ∨ 2 ∣ F) →
      T * ((c + (F + T) / 2) / T) = c + F / 2 := by
    intro F T c hT hd hc
    obtain ⟨r, hr⟩ := hd
    have e : c + (F + T) / 2 = ((F + T) / 2 - F / 2) + T * r := by omega
    have e2 : (F + T) / 2 - F / 2 < T := by
      rcases hc with hc | ⟨b, rfl⟩
      · omega
      · omega
    rw [e, Nat.add_mul_div_left _ _ hT, Nat.div_eq_of_lt e2, Nat.zero_add, hr]
  exact h3 _ _ (by omega) (by omega) (by rw [rx]; exact key tx hgx hcx) (by rw [ry]; exact key ty hgy hcy)

/-- Without reduction and with an odd border (kernels of even size), the value learnt for a label appears in
the output for whole images one pixel before the labelled one, in both directions. -/
theorem C84_label_shifted (env : Env R) (conv conv' : Str → R) (items : List Item) (mode mode' : Mode R)
    (classes nx ny m : Nat) (image lab : Tensor R)
    (hok : ∀ i ∈ items, i.Ok) (hnl : ∀ i ∈ items, '\n' ∉ i.text) (hm : Item.patches ∈ items)
    (hx : ∀ g ∈ geoX items, g.Plain) (hy : ∀ g ∈ geoY items, g.Plain)
    (hborder : 0 < field (geoX items) ↔ 0 < field (geoY items))
    (hnx : 0 < nx) (hny : 0 < ny)
    (bx : field (geoX items) + total (geoX items) * nx < 2147483648)
    (by' : field (geoY items) + total (geoY items) * ny < 2147483648)
    (hfit : Fits env.parameters 0 m items)
    (himage : image.Is 1 (total (geoX items) * nx) (total (geoY items) * ny) m)
    (f : Fields) (hf : construct (linesOf (descriptionText items)) true = .done f)
    (ef : Nat → Nat → Nat → Nat → R) (cw : List R) (col row q ps : Nat) (old o : Outputs R)
    (hd : o.data.Is ps f.rfx.toNat f.rfy.toNat m) (hq : q < ps)
    (hcol : col + f.rfx.toNat ≤ image.width) (hrow : row + f.rfy.toNat ≤ image.height)
    (hh : HoldsPatch ef cw f.rfx.toNat f.rfy.toNat image lab col row q old o)
    (htx : total (geoX items) = 1) (hty : total (geoY items) = 1)
    (hcx : ¬ 2 ∣ field (geoX items)) (hcy : ¬ 2 ∣ field (geoY items)) :
    ∃ out p, predict env conv (linesOf (descriptionText items)) false mode classes [image] = .done out ∧
      predict env conv' (linesOf (descriptionText items)) true mode' classes [o.data] = .done p ∧
      ∀ k < mapsOf items m, ∃ v,
        p.get 0 0 k q = some v ∧ out.get (col + f.rfx.toNat / 2 - 1) (row + f.rfy.toNat / 2 - 1) k 0 = some v := by
  obtain ⟨rx, ry, out, p, h1, h2, h3⟩ := sample_value env conv conv' items mode mode' classes nx ny m image lab hok hnl hm hx hy hborder hnx hny bx by'
    hfit himage f hf ef cw col row q ps old o hd hq hcol hrow hh
  refine ⟨out, p, h1, h2, ?_⟩
  rw [himage.2.1, htx] at hcol
  rw [himage.2.2.1, hty] at hrow
  rw [htx, hty] at h3
  rw [htx] at rx
  rw [hty] at ry
  exact h3 _ _ (by omega) (by omega) (by rw [Nat.div_one, rx]; omega) (by rw [Nat.div_one, ry]; omega)

/-! ### Witnesses -/

/-- A convolution of size 2x2. -/
def evenItems : List Item := [.patches, .conv 1 (2, 2) none none]

/-- Its parameters, and a function in the place of the exponential function. -/
def evenEnv : Env ℚ where
  exp := fun v => v * v + 1
  lowest := -1000
  parameters := fun _ => ⟨⟨1, 2, 2, 1, [1, 1, 1, 1]⟩, ⟨1, 1, 1, 1, [0]⟩⟩

/-- The full property fails: the values at the labelled pixel differ, since the other net computes it from
the pixels below and to the right of it. -/
theorem C84_label_shifted_differs :
    let image : Tensor ℚ := ⟨1, 3, 3, 1, [1, 2, 3, 4, 5, 6, 7, 8, 9]⟩
    let patch : Tensor ℚ := ⟨1, 2, 2, 1, [1, 2, 4, 5]⟩
    construct (linesOf (descriptionText evenItems)) true = .done ⟨.patch, 2, 2, 1, 1, false⟩ ∧
    ∃ out p v w,
      predict evenEnv (fun _ => 0) (linesOf (descriptionText evenItems)) false ⟨true, 0⟩ 1 [image] = .done out ∧
      predict evenEnv (fun _ => 0) (linesOf (descriptionText evenItems)) true ⟨false, 0⟩ 1 [patch] = .done p ∧
      p.get 0 0 0 0 = some v ∧ out.get (0 + 2 / 2) (0 + 2 / 2) 0 0 = some w ∧ v ≠ w := by
  refine ⟨by decide +kernel,
    ⟨1, 3, 3, 1, [288 / 289, 512 / 513, 162 / 163, 1152 / 1153, 1568 / 1569, 450 / 451, 450 / 451, 578 / 579,
      162 / 163]⟩, ⟨1, 1, 1, 1, [288 / 289]⟩, 288 / 289, 1568 / 1569, ?_, ?_, ?_, ?_, ?_⟩
  all_goals decide +kernel

/-- A convolution of size 3x3 with padding. -/
def padItems : List Item := [.patches, .conv 1 (3, 3) none (some (1, 1))]

/-- Its parameters. -/
def padEnv : Env ℚ where
  exp := fun v => v * v + 1
  lowest := -1000
  parameters := fun _ => ⟨⟨1, 3, 3, 1, [1, 1, 1, 1, 1, 1, 1, 1, 1]⟩, ⟨1, 1, 1, 1, [0]⟩⟩

/-- The full property fails with padding: the patches have one pixel and the net for patches pads each of
them, so that it never sees a neighbour; the net for whole images sees them. -/
theorem C84_padding_differs :
    let image : Tensor ℚ := ⟨1, 2, 2, 1, [1, 2, 4, 5]⟩
    let patch : Tensor ℚ := ⟨1, 1, 1, 1, [1]⟩
    construct (linesOf (descriptionText padItems)) true = .done ⟨.patch, 1, 1, 1, 1, false⟩ ∧
    ∃ out p v w,
      predict padEnv (fun _ => 0) (linesOf (descriptionText padItems)) false ⟨true, 0⟩ 1 [image] = .done out ∧
      predict padEnv (fun _ => 0) (linesOf (descriptionText padItems)) true ⟨false, 0⟩ 1 [patch] = .done p ∧
      p.get 0 0 0 0 = some v ∧ out.get 0 0 0 0 = some w ∧ v ≠ w := by
  refine ⟨by decide +kernel, ⟨1, 2, 2, 1, [288 / 289, 288 / 289, 288 / 289, 288 / 289]⟩, ⟨1, 1, 1, 1, [2 / 3]⟩,
    2 / 3, 288 / 289, ?_, ?_, ?_, ?_, ?_⟩
  all_goals decide +kernel

/-! ### Non-vacuity -/

/-- A convolution, a pooling and an activation. -/
def smallItems : List Item := [.patches, .conv 2 (3, 2) none none, .maxPool (2, 2), .act .relu, .full 1]

def smallEnv : Env ℚ where
  exp := fun v => v * v + 1
  lowest := -1000
  parameters := fun
    | 0 => ⟨⟨2, 3, 2, 1, [1, 0, 2, 1, 1, -1, 0, 1, 0, 2, 1, 1]⟩, ⟨1, 2, 1, 1, [1, -3]⟩⟩
    | _ => ⟨⟨1, 1, 1, 2, [2, -1]⟩, ⟨1, 1, 1, 1, [1]⟩⟩

example : Fits smallEnv.parameters 0 1 smallItems := by
  simp [Fits, smallItems, smallEnv, NetEval.Weights.Fit, Tensor.Is, Tensor.WF, Tensor.elements]

theorem smallItems_ok : ∀ i ∈ smallItems, i.Ok := by
  intro i hi
  simp only [smallItems, List.mem_cons, List.not_mem_nil, or_false] at hi
  rcases hi with rfl | rfl | rfl | rfl | rfl <;>
    first
      | (simp [Item.Ok, Item.geo, Geo.Ok]; done)
      | (refine ⟨by simp, ?_, by simp, by simp [Item.geo, Geo.Ok]⟩
         intro n k s p e
         obtain ⟨rfl, -⟩ := Item.conv.inj e
         decide)

/-- The hypotheses hold for this net and an image of 6 by 4 pixels. -/
example (image : Tensor ℚ) (h : image.Is 1 6 4 1) :
    ∃ f out, construct (linesOf (descriptionText smallItems)) true = .done f ∧
      predict smallEnv (fun _ => 0) (linesOf (descriptionText smallItems)) false ⟨true, 7⟩ 2 [image] = .done out ∧
      out.Is 1 6 4 1 := by
  obtain ⟨f, out, h1, h2, h3, -⟩ := C84_image_is_patches_partial smallEnv (fun _ => 0) (fun _ => 0) smallItems
    ⟨true, 7⟩ ⟨false, 9⟩ 2 3 2 1 1 image smallItems_ok (by decide +kernel) (by decide +kernel)
    (by simp [geoX, smallItems, Item.geo, Geo.Plain]) (by simp [geoY, smallItems, Item.geo, Geo.Plain])
    (by decide +kernel) (by decide) (by decide) (by decide +kernel) (by decide +kernel)
    (by simp [Fits, smallItems, smallEnv, NetEval.Weights.Fit, Tensor.Is, Tensor.WF, Tensor.elements]) h
  exact ⟨f, out, h1, h2, h3⟩

end CN24.Props
