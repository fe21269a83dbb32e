import Verif.Props.Stream
import Verif.Props.ListStream
import Verif.Props.DatasetConfig
import Verif.Proof.StreamTools

/-! C76: the tools that write tensor stream files. -/

namespace CN24.Props
open CN24 CN24.Tensor CN24.Compress CN24.Config CN24.Image CN24.StreamTools

/-! ### Shortening a file -/

/-- What loading yields for a tensor all of whose values are in the file. -/
def loaded (t : Tensor F32) : Tensor (Option F32) := ⟨t.samples, t.width, t.height, t.maps, t.data.map some⟩

/-- The file after the tool has ended, if it is determined. -/
def after (old : List Byte) : Action → Option (List Byte)
  | .leave => some old
  | .rewrite new => some new
  | .undetermined => none

/-- A number on the command line. -/
def IsNumber (ds : Str) (k : Nat) : Prop :=
  ds ≠ [] ∧ (∀ c ∈ ds, c.isDigit = true) ∧ digitsValue ds = k ∧ k ≤ 2147483647

theorem atoi_number {ds : Str} {k : Nat} (h : IsNumber ds k) : (atoi ds).map toUInt = some k := by
  obtain ⟨h1, h2, h3, h4⟩ := h
  have := atoi_digits (rest := []) h1 h2 (by simp)
  rw [List.append_nil, h3, if_pos h4] at this
  rw [this, Option.map_some]
  unfold toUInt
  congr 1
  omega

theorem trim_eq {bytes : List Byte} {ds : Str} {k n : Nat} (h : (atoi ds).map toUInt = some k)
    (hn : countLoop (bytes.length + 3) { bytes } 0 = some n) : trim bytes ds = some (trimAction bytes n k) := by
  unfold trim
  cases e : atoi ds with
  | none => rw [e] at h; cases h
  | some i =>
    rw [e, Option.map_some] at h
    rw [Option.bind_some, hn, Option.map_some, Option.some.inj h]

theorem count_file {ts : List (Tensor F32)} (hts : ∀ t ∈ ts, Good t) (hne : ts ≠ []) (hl : ts.length < 4294967296) :
    countLoop ((ts.flatMap serialize).length + 3) { bytes := ts.flatMap serialize } 0 = some ts.length := by
  obtain ⟨us, u, rfl⟩ : ∃ us u, ts = us ++ [u] := ⟨ts.dropLast, ts.getLast hne, (List.dropLast_append_getLast hne).symm⟩
  have hlen := records_le_bytes (us ++ [u]) (fun t ht => (hts t ht).1)
  rw [List.length_append, List.length_singleton] at hl hlen
  rw [countLoop_all us (fun t ht => hts t (by simp [ht])) u (hts u (by simp)) _ 0 _ (by omega) (by omega)
    ⟨rfl, rfl, by simp, by simp⟩]
  simp

/-- C76: shortening a file to `k` tensors leaves exactly the first `k` of them, bit for bit, or all if there are not
more. -/
theorem C76_trim (mmap : Bool) (ts : List (Tensor F32)) (hts : ∀ t ∈ ts, t.WF ∧ 0 < t.elements ∧ t.Fits)
    (hne : ts ≠ []) (hl : ts.length < 4294967296) (ds : Str) (k : Nat) (hk : IsNumber ds k) :
    ∃ a new, trim (ts.flatMap serialize) ds = some a ∧ after (ts.flatMap serialize) a = some new ∧
      new = (ts.take k).flatMap serialize ∧ floatLoad mmap new = some ((ts.take k).map loaded) := by
  have hload : floatLoad mmap ((ts.take k).flatMap serialize) = some ((ts.take k).map loaded) :=
    C03_load_file mmap _ fun t ht => hts t (List.mem_of_mem_take ht)
  refine ⟨_, _, trim_eq (atoi_number hk) (count_file hts hne hl), ?_, rfl, hload⟩
  by_cases hkl : k ≤ ts.length
  · have := trimAction_eq ts hts [] ts.length k hkl
    rw [List.append_nil] at this
    rw [this]
    by_cases h : ts.length ≤ k
    · rw [if_pos h, List.take_of_length_le h]; rfl
    · rw [if_neg h]; rfl
  · unfold trimAction
    rw [if_pos (by omega), List.take_of_length_le (by omega)]
    rfl

/-- C76: a file that was cut off anywhere within its last tensor is repaired by shortening it to the tensors in front
of the damage, or to fewer. -/
theorem C76_trim_repairs (mmap : Bool) (ts : List (Tensor F32)) (hts : ∀ t ∈ ts, t.WF ∧ 0 < t.elements ∧ t.Fits)
    (t : Tensor F32) (ht : t.WF ∧ 0 < t.elements ∧ t.Fits) (j : Nat) (hj : 0 < j) (hj' : j < t.serialize.length)
    (hl : ts.length + 1 < 4294967296) (ds : Str) (k : Nat) (hk : IsNumber ds k) (hkl : k ≤ ts.length) :
    ∃ new, trim (ts.flatMap serialize ++ t.serialize.take j) ds = some (.rewrite new) ∧
      new = (ts.take k).flatMap serialize ∧ floatLoad mmap new = some ((ts.take k).map loaded) := by
  refine ⟨_, ?_, rfl, C03_load_file mmap _ fun t ht => hts t (List.mem_of_mem_take ht)⟩
  have hlen := records_le_bytes ts (fun t ht => (hts t ht).1)
  rw [trim_eq (atoi_number hk) (countLoop_cut ts hts t ht j _ 0 _ hj hj'
      (by rw [List.length_append]; omega) (by omega) ⟨rfl, rfl, by simp, rfl⟩),
    trimAction_eq ts hts _ _ k hkl, if_neg (by omega)]

/-- C76: the tool ends for every file that exists. -/
theorem C76_trim_ends (bytes : List Byte) (ds : Str) (k : Nat) (hk : IsNumber ds k) : ∃ a, trim bytes ds = some a := by
  obtain ⟨n, h⟩ := countLoop_terminates (bytes.length + 3) { bytes } 0 (fun h => by cases h)
    (show bytes.length - 0 + 2 ≤ bytes.length + 3 by omega)
  exact ⟨_, trim_eq (atoi_number hk) h⟩

/-- C76, in part: whenever the tool is interrupted, what is found in the file is either the old contents or loads as
some of the first `k` tensors, in order, followed by at most one damaged one. -/
theorem C76_trim_crash_partial (mmap : Bool) (ts : List (Tensor F32)) (hts : ∀ t ∈ ts, t.WF ∧ 0 < t.elements ∧ t.Fits)
    (hne : ts ≠ []) (hl : ts.length < 4294967296) (ds : Str) (k : Nat) (hk : IsNumber ds k) (a : Action)
    (ha : trim (ts.flatMap serialize) ds = some a) (c : List Byte) (hc : Found (ts.flatMap serialize) a c) :
    c = ts.flatMap serialize ∨ ∃ i extra, i ≤ k ∧ extra.length ≤ 1 ∧
      floatLoad mmap c = some ((ts.take i).map loaded ++ extra) := by
  cases hc with
  | old => exact .inl rfl
  | @part new _ e hp =>
    right
    obtain ⟨a', new', h1, h2, h3, _⟩ := C76_trim mmap ts hts hne hl ds k hk
    rw [ha] at h1
    cases h1
    rw [e] at h2
    cases h2
    obtain ⟨i, extra, g1, g2, g3, g4⟩ := C03_load_truncated mmap (ts.take k)
      (fun t ht => hts t (List.mem_of_mem_take ht)) c.length
    rw [← h3, ← List.prefix_iff_eq_take.1 hp, List.take_take] at g4
    exact ⟨min i k, extra, by omega, g3, g4⟩

/-- C76, refuted: there is a moment at which the file holds no tensor at all, although the tensors to be kept were in
it before and after: whoever interrupts the tool then has lost all of them. -/
theorem C76_trim_crash_loses (mmap : Bool) (ts : List (Tensor F32)) (hts : ∀ t ∈ ts, t.WF ∧ 0 < t.elements ∧ t.Fits)
    (hl : ts.length < 4294967296) (ds : Str) (k : Nat) (hk : IsNumber ds k) (hkl : k < ts.length) :
    ∃ a, trim (ts.flatMap serialize) ds = some a ∧ Found (ts.flatMap serialize) a [] ∧
      floatLoad mmap [] = some [] := by
  have hne : ts ≠ [] := by rintro rfl; exact absurd hkl (by simp)
  refine ⟨_, trim_eq (atoi_number hk) (count_file hts hne hl), .part (new := (ts.take k).flatMap serialize) ?_
    List.nil_prefix, C03_load_file mmap [] (by simp)⟩
  have := trimAction_eq ts hts [] ts.length k (by omega)
  rw [List.append_nil] at this
  rw [this, if_neg (by omega)]

/-- C76, refuted: a word instead of a number counts as zero and erases the file. -/
theorem C76_trim_word_erases (ts : List (Tensor F32)) (hts : ∀ t ∈ ts, t.WF ∧ 0 < t.elements ∧ t.Fits)
    (hne : ts ≠ []) (hl : ts.length < 4294967296) :
    trim (ts.flatMap serialize) "all".toList = some (.rewrite []) := by
  have hpos : 0 < ts.length := List.length_pos_of_ne_nil hne
  have := trimAction_eq ts hts [] ts.length 0 (by omega)
  rw [List.append_nil] at this
  rw [trim_eq (k := 0) (by decide) (count_file hts hne hl), this, if_neg (by omega)]
  rfl

/-- C76, refuted: given the name of a missing file, the tool never ends. -/
theorem C76_trim_missing (fuel n : Nat) : countLoop fuel (openIn none) n = none := countLoop_failed rfl rfl fuel n

/-! ### Compressing a file -/

/-- A compressed file that holds tensors of the given shapes and values: it is recognised, it has as many tensors, and
copying a sample out of it is copying it out of a tensor with these values. -/
def ReadsAs (mmap : Bool) (file : List Byte) (ts : List (Tensor F32)) : Prop :=
  isCompressedFile file = true ∧ ∃ cs, load mmap file = .ok cs ∧ cs.length = ts.length ∧
    ∀ k (hk : k < ts.length), ∃ u : Tensor F32,
      u.samples = ts[k].samples ∧ u.width = ts[k].width ∧ u.height = ts[k].height ∧ u.maps = ts[k].maps ∧
      List.Forall₂ SameValue ts[k].data u.data ∧
      cs[k]?.map (fun c => (c.samples, c.width, c.height, c.maps)) = some (u.samples, u.width, u.height, u.maps) ∧
      ∀ (target : Tensor F32) (i j : Nat), target.WF → j < target.samples →
        ∃ r, Tensor.copySample u i target j = some r ∧ Compress.copySample cs (maxElements cs) k i target j = .ok r

theorem storable_good {t : Tensor F32} (h : Storable t) : Good t := by
  obtain ⟨h1, h2, h3, h4⟩ := h
  have e : t.elements = t.samples * t.maps * t.width * t.height := rfl
  have key : t.maps ≤ t.elements ∧ t.width ≤ t.elements ∧ t.height ≤ t.elements := by
    rw [h2, Nat.one_mul] at e
    have hm : 0 < t.maps := Nat.pos_of_ne_zero (by intro h; rw [h] at e; simp at e; omega)
    have hw : 0 < t.width := Nat.pos_of_ne_zero (by intro h; rw [h] at e; simp at e; omega)
    have hh : 0 < t.height := Nat.pos_of_ne_zero (by intro h; rw [h] at e; simp at e; omega)
    rw [e]
    refine ⟨?_, ?_, ?_⟩
    · rw [Nat.mul_assoc]; exact Nat.le_mul_of_pos_right _ (Nat.mul_pos hw hh)
    · rw [Nat.mul_right_comm]; exact Nat.le_mul_of_pos_left _ (Nat.mul_pos hm hh)
    · exact Nat.le_mul_of_pos_left _ (Nat.mul_pos hm hw)
  exact ⟨h1, h3, by omega, by omega, by omega, by omega, by omega⟩

theorem storable_codes (ts : List (Tensor F32)) (hts : ∀ t ∈ ts, Storable t) :
    ∃ cs, ts.mapM compress = some cs ∧ List.Forall₂ (fun t c => compress t = some c ∧ ∃ u, decompress c = .ok u ∧
      u.elements = t.elements) ts cs := by
  induction ts with
  | nil => exact ⟨[], rfl, .nil⟩
  | cons t ts ih =>
    obtain ⟨cs, h1, h2⟩ := ih fun t ht => hts t (by simp [ht])
    obtain ⟨g1, g2, g3, g4⟩ := hts t (by simp)
    obtain ⟨c, u, k1, k2, k3, k4, k5, k6, _⟩ := C04_roundtrip_partial t ⟨g1, fun h => by omega⟩ g4
    exact ⟨c :: cs, by simp [List.mapM_cons, k1, h1],
      .cons ⟨k1, u, k2, by unfold elements; rw [k3, k4, k5, k6]⟩ h2⟩

/-- The only record of an empty file, as the compression tool writes it. -/
theorem compress_nothing : compressLoop 3 ⟨0, 0, 0, 0, []⟩ { bytes := [] } (leBytes 8 magic) =
    .done (leBytes 8 magic ++ List.replicate 40 0#8) := by decide +kernel

theorem load_nothing (mmap : Bool) : isCompressedFile (leBytes 8 magic ++ List.replicate 40 0#8) = true ∧
    load mmap (leBytes 8 magic ++ List.replicate 40 0#8) = .ok [] := by
  cases mmap <;> decide +kernel

/-- C76: compressing a file yields one that reads as the same tensors, and changes no other file. -/
theorem C76_compress (mmap : Bool) (d : Disk) (input output : Str) (hio : input ≠ output) (ts : List (Tensor F32))
    (hts : ∀ t ∈ ts, Storable t) (hin : d input = some (ts.flatMap serialize)) :
    ∃ file, compressTool d input output = (.done (), d.set output file) ∧ ReadsAs mmap file ts := by
  have hin' : (d.set output []) input = some (ts.flatMap serialize) := by
    unfold Disk.set; rw [if_neg hio, hin]
  by_cases hne : ts = []
  · subst hne
    refine ⟨leBytes 8 magic ++ List.replicate 40 0#8, ?_, (load_nothing mmap).1, [], (load_nothing mmap).2, rfl,
      fun k hk => absurd hk (by simp)⟩
    unfold compressTool
    rw [hin, hin']
    dsimp only
    rw [show (([] : List (Tensor F32)).flatMap serialize).length + 3 = 3 from rfl,
      show ([] : List (Tensor F32)).flatMap serialize = [] from rfl, compress_nothing]
  · obtain ⟨cs, h1, h2⟩ := storable_codes ts hts
    obtain ⟨file, cs', k1, k2, k3, k4, k5⟩ := C07_compressed_file mmap ts hts
    have hfile : file = leBytes 8 magic ++ cs.flatMap CTensor.serialize := by
      unfold writeFile at k1
      rw [h1] at k1
      exact (Option.some.inj k1).symm
    refine ⟨file, ?_, k2, cs', k3, k4, k5⟩
    unfold compressTool
    rw [hin, hin']
    dsimp only
    have hlen := records_le_bytes ts (fun t ht => (hts t ht).1)
    rw [compressLoop_records ts (fun t ht => storable_good (hts t ht)) cs h2 _ _ _ _ hne (by omega)
      ⟨rfl, rfl, by simp, by simp⟩, ← hfile]

/-- C76, refuted: with the same file as input and output all tensors are lost; the tool reports success. -/
theorem C76_compress_in_place (mmap : Bool) (d : Disk) (name : Str) (bytes : List Byte) (h : d name = some bytes) :
    ∃ file, compressTool d name name = (.done (), d.set name file) ∧ load mmap file = .ok [] := by
  refine ⟨leBytes 8 magic ++ List.replicate 40 0#8, ?_, (load_nothing mmap).2⟩
  unfold compressTool
  have : (d.set name []) name = some [] := by unfold Disk.set; rw [if_pos rfl]
  rw [h, this]
  dsimp only
  rw [show ([] : List Byte).length + 3 = 3 from rfl, compress_nothing]

/-- C76, refuted: with a wrong name as input, the output file is emptied before the error is noticed. -/
theorem C76_compress_missing_input (d : Disk) (input output : Str) (h : d input = none) :
    compressTool d input output = (.fatal, d.set output []) := by
  unfold compressTool
  rw [h]

/-- Two tensors, of which the second had the values 3 and 4; the last four bytes are cut off. -/
def cutFile : List Byte :=
  (([⟨1, 2, 1, 1, [1#32, 2#32]⟩, ⟨1, 2, 1, 1, [3#32, 4#32]⟩] : List (Tensor F32)).flatMap serialize).take 76

/-- C76, refuted: a file that ends within its last tensor is compressed without a report, and what is missing is filled
with values of the tensor before it. -/
theorem C76_compress_truncated_mixes (d : Disk) (input output : Str) (hio : input ≠ output)
    (hin : d input = some cutFile) :
    ∃ file, compressTool d input output = (.done (), d.set output file) ∧ ReadsAs false file
      [⟨1, 2, 1, 1, [1#32, 2#32]⟩, ⟨1, 2, 1, 1, [3#32, 2#32]⟩] := by
  have hst : ∀ t ∈ ([⟨1, 2, 1, 1, [1#32, 2#32]⟩, ⟨1, 2, 1, 1, [3#32, 2#32]⟩] : List (Tensor F32)), Storable t := by
    intro t ht
    rcases List.mem_pair.1 ht with rfl | rfl <;> exact ⟨by decide, by decide, by decide, by decide⟩
  obtain ⟨file, cs, k1, k2, k3, k4, k5⟩ := C07_compressed_file false _ hst
  refine ⟨file, ?_, k2, cs, k3, k4, k5⟩
  have hin' : (d.set output []) input = d input := by unfold Disk.set; rw [if_neg hio]
  unfold compressTool
  rw [hin', hin]
  dsimp only
  have : compressLoop (cutFile.length + 3) ⟨0, 0, 0, 0, []⟩ { bytes := cutFile } (leBytes 8 magic) =
      Outcome.ofOption (writeFile [⟨1, 2, 1, 1, [1#32, 2#32]⟩, ⟨1, 2, 1, 1, [3#32, 2#32]⟩]) := by decide +kernel
  rw [this, k1]
  rfl

/-! ### Converting lists of images -/

/-- C76: what the conversion tools write are the tensors that the list of the same files gives, in the same order:
as many as the list stream counts, and each of them the one its `CopySample` copies. -/
theorem C76_same_as_list (near : ℚ × ℚ × ℚ → ℚ × ℚ × ℚ → ℚ) (texts : Str → Option Str) (fs : Files)
    (colors : List Nat) (ilist idir llist ldir : Str) (ts : List (Tensor ℚ))
    (h : makeTensors near texts fs false colors ilist idir llist ldir = .done ts) :
    ∃ st, ListStream.loadFiles texts fs ⟨[], colors⟩ ilist idir llist ldir = .done (ts.length, st) ∧
      st.count = ts.length ∧ st.colors = colors ∧ ∀ k t, ts[k]? = some t →
        ∃ m, st.tensors[k]? = some m ∧ ListStream.tensorAt near fs st m k = .done t := by
  unfold makeTensors at h
  unfold ListStream.loadFiles
  cases e1 : ListStream.directory idir with
  | fatal => rw [e1] at h; cases h
  | undefined => rw [e1] at h; cases h
  | done idir' =>
    rw [e1, Outcome.bind_done] at h
    rw [Outcome.bind_done]
    cases e2 : ListStream.directory ldir with
    | fatal => rw [e2] at h; cases h
    | undefined => rw [e2] at h; cases h
    | done ldir' =>
      rw [e2, Outcome.bind_done] at h
      rw [Outcome.bind_done]
      split at h
      · next is ls h1 h2 =>
        rw [h1, h2]
        dsimp only
        obtain ⟨ms, n, k1, k2, k3⟩ := makeLoop_list near fs colors idir' ldir' _ _ [] ts [] 0
          ⟨rfl, rfl, fun k m t hm => by simp at hm⟩ h
        rw [k1, Outcome.bind_done]
        rw [List.length_nil, Nat.add_zero, Nat.zero_add] at k3
        refine ⟨⟨ms, colors⟩, by rw [k3], k2.1, rfl, ?_⟩
        intro k t hk
        have hlt : k < ms.length := by rw [k2.1]; exact (List.getElem?_eq_some_iff.1 hk).1
        exact ⟨ms[k], List.getElem?_eq_getElem hlt, k2.2.2 k _ t (List.getElem?_eq_getElem hlt) hk⟩
      · cases h

/-- C76: whenever the list of the files can be loaded and all its tensors be made, the conversion ends normally. -/
theorem C76_list_converts (near : ℚ × ℚ × ℚ → ℚ × ℚ × ℚ → ℚ) (texts : Str → Option Str) (fs : Files)
    (colors : List Nat) (ilist idir llist ldir : Str) (n : Nat) (st : ListStream.Stream)
    (h : ListStream.loadFiles texts fs ⟨[], colors⟩ ilist idir llist ldir = .done (n, st))
    (hall : ∀ k m, st.tensors[k]? = some m → ∃ t, ListStream.tensorAt near fs st m k = .done t) :
    ∃ ts, makeTensors near texts fs false colors ilist idir llist ldir = .done ts := by
  unfold ListStream.loadFiles at h
  unfold makeTensors
  cases e1 : ListStream.directory idir with
  | fatal => rw [e1] at h; cases h
  | undefined => rw [e1] at h; cases h
  | done idir' =>
    rw [e1, Outcome.bind_done] at h
    rw [Outcome.bind_done]
    cases e2 : ListStream.directory ldir with
    | fatal => rw [e2] at h; cases h
    | undefined => rw [e2] at h; cases h
    | done ldir' =>
      rw [e2, Outcome.bind_done] at h
      rw [Outcome.bind_done]
      split at h
      · next is ls h1 h2 =>
        rw [h1, h2]
        dsimp only
        dsimp only at h
        cases e3 : ListStream.loadLoop fs colors.length idir' ldir' (NetConfig.linesOf is) (NetConfig.linesOf ls) [] 0 with
        | fatal => rw [e3] at h; cases h
        | undefined => rw [e3] at h; cases h
        | done r =>
          rw [e3, Outcome.bind_done] at h
          cases h
          exact list_makeLoop near fs colors idir' ldir' _ _ [] [] r.1 0 r.2 rfl e3 hall
      · cases h

/-- Tensors without elements keep no dimensions. -/
theorem stored_spec (bits : ℚ → F32) {t : Tensor ℚ} (h : 0 < t.elements) :
    stored bits t = ⟨t.samples, t.width, t.height, t.maps, t.data.map bits⟩ := by
  unfold stored
  rw [if_neg (by omega)]

theorem stored_storable (bits : ℚ → F32) {t : Tensor ℚ} (h1 : t.WF) (h2 : t.samples = 1) (h3 : 0 < t.elements)
    (h4 : t.elements < 2 ^ 29) : Storable (stored bits t) := by
  rw [stored_spec bits h3]
  exact ⟨by show (t.data.map bits).length = _; rw [List.length_map]; exact h1, h2, h3, h4⟩

/-- C76: both output files, the plain one and the compressed one, hold these tensors, value for value, when they are
loaded as a training set. -/
theorem C76_make_file (mmap : Bool) (bits : ℚ → F32) (ts : List (Tensor ℚ))
    (hts : ∀ t ∈ ts, t.WF ∧ t.samples = 1 ∧ 0 < t.elements ∧ t.elements < 2 ^ 29) :
    floatLoad mmap (makeFile bits ts) = some (ts.map fun t =>
      ⟨t.samples, t.width, t.height, t.maps, t.data.map fun v => some (bits v)⟩) ∧
    ∃ file, makeCompressedFile bits ts = some file ∧
      ReadsAs mmap file (ts.map fun t => ⟨t.samples, t.width, t.height, t.maps, t.data.map bits⟩) := by
  have hmap : ts.map (stored bits) = ts.map fun t => ⟨t.samples, t.width, t.height, t.maps, t.data.map bits⟩ :=
    List.map_congr_left fun t ht => stored_spec bits (hts t ht).2.2.1
  have hst : ∀ u ∈ ts.map (stored bits), Storable u := by
    intro u hu
    obtain ⟨t, ht, rfl⟩ := List.mem_map.1 hu
    obtain ⟨h1, h2, h3, h4⟩ := hts t ht
    exact stored_storable bits h1 h2 h3 h4
  constructor
  · have := C03_load_file mmap (ts.map (stored bits)) fun u hu => storable_good (hst u hu)
    unfold makeFile
    rw [List.flatMap_map] at this
    rw [this, List.map_map]
    congr 1
    refine List.map_congr_left fun t ht => ?_
    dsimp only [Function.comp]
    rw [stored_spec bits (hts t ht).2.2.1, List.map_map]
    rfl
  · obtain ⟨file, cs, k1, k2, k3, k4, k5⟩ := C07_compressed_file mmap _ hst
    refine ⟨file, k1, ?_⟩
    rw [← hmap]
    exact ⟨k2, cs, k3, k4, k5⟩

/-- C76, in part: with direct labels, the label tensor has the first three channels of the label image. -/
theorem C76_direct_partial (near : ℚ × ℚ × ℚ → ℚ × ℚ × ℚ → ℚ) (colors : List Nat) (rgb : Tensor ℚ) (hw : rgb.WF)
    (hs : 0 < rgb.samples) (hm : 3 ≤ rgb.maps) :
    ∃ t, makeLabel near true colors rgb = .done t ∧ t.samples = 1 ∧ t.width = rgb.width ∧ t.height = rgb.height ∧
      t.maps = 3 ∧ t.WF ∧ ∀ x y c, x < rgb.width → y < rgb.height → c < 3 → t.get x y c 0 = rgb.get x y c 0 := by
  obtain ⟨t, e, ⟨q1, q2, q3, q4⟩, h1, h2⟩ := directLabels_spec hw hs hm
  exact ⟨t, by unfold makeLabel; rw [if_pos rfl, e], q1.symm, q2.symm, q3.symm, q4.symm, h1, h2⟩

/-- C76, refuted: with direct labels, every label image with fewer than three channels, for example every grey one, is
read outside its memory. -/
theorem C76_direct_undefined (near : ℚ × ℚ × ℚ → ℚ × ℚ × ℚ → ℚ) (colors : List Nat) (rgb : Tensor ℚ) (hw : rgb.WF)
    (hs : rgb.samples = 1) (hm : rgb.maps < 3) (hx : 0 < rgb.width) (hy : 0 < rgb.height) :
    makeLabel near true colors rgb = .undefined := by
  unfold makeLabel
  rw [if_pos rfl]
  exact directLabels_bad hw hs hm hx hy

/-- C76, refuted: a pair of missing JPEG files is written as two tensors without elements, and a loader stops there:
all pairs that follow in the file are lost without a report. -/
theorem C76_missing_pair_hides (mmap : Bool) (bits : ℚ → F32) (ts : List (Tensor ℚ))
    (hts : ∀ t ∈ ts, t.WF ∧ t.samples = 1 ∧ 0 < t.elements ∧ t.elements < 2 ^ 29) (image : Tensor ℚ)
    (hi : image.elements = 0) (rest : List (Tensor ℚ)) :
    floatLoad mmap (makeFile bits (ts ++ image :: rest)) = some (ts.map fun t =>
      ⟨t.samples, t.width, t.height, t.maps, t.data.map fun v => some (bits v)⟩) := by
  have hg : ∀ u ∈ ts.map (stored bits), Good u := by
    intro u hu
    obtain ⟨t, ht, rfl⟩ := List.mem_map.1 hu
    obtain ⟨h1, h2, h3, h4⟩ := hts t ht
    exact storable_good (stored_storable bits h1 h2 h3 h4)
  have hz : stored bits image = ⟨0, 0, 0, 0, []⟩ := by unfold stored; rw [if_pos hi]
  have hfile : makeFile bits (ts ++ image :: rest) = (ts.map (stored bits)).flatMap serialize ++
      (serialize (⟨0, 0, 0, 0, []⟩ : Tensor F32) ++ makeFile bits rest) := by
    unfold makeFile
    rw [List.flatMap_append, List.flatMap_cons, hz, List.flatMap_map]
  have hlen := records_le_bytes (ts.map (stored bits)) (fun t ht => (hg t ht).1)
  have hle : (ts.map (stored bits)).length + 32 ≤ (makeFile bits (ts ++ image :: rest)).length := by
    have : (serialize (⟨0, 0, 0, 0, []⟩ : Tensor F32)).length = 32 := by decide
    rw [hfile, List.length_append, List.length_append, this]
    omega
  unfold floatLoad
  obtain ⟨s', e, h'⟩ := floatLoop_records (mmap := mmap) (ts.map (stored bits)) hg
    (serialize (⟨0, 0, 0, 0, []⟩ : Tensor F32) ++ makeFile bits rest) ((makeFile bits (ts ++ image :: rest)).length + 3)
    { bytes := makeFile bits (ts ++ image :: rest) } [] (by omega) ⟨rfl, rfl, by simp, by simp [hfile]⟩
  rw [e]
  have hne : serialize (⟨0, 0, 0, 0, []⟩ : Tensor F32) ++ makeFile bits rest ≠ [] := by
    intro h
    have h1 := (List.append_eq_nil_iff.1 h).1
    revert h1
    decide
  have hat := h'.resolve_right fun h => hne h.1
  obtain ⟨k, hk⟩ : ∃ k, (makeFile bits (ts ++ image :: rest)).length + 3 - (ts.map (stored bits)).length = k + 1 :=
    ⟨(makeFile bits (ts ++ image :: rest)).length + 2 - (ts.map (stored bits)).length, by omega⟩
  rw [hk, floatLoop, if_neg (by simp [hat.1]), Tensor.deserialize_empty mmap (by decide) (by decide) hat]
  dsimp only
  rw [if_pos (by decide), List.nil_append, List.map_map]
  congr 1
  refine List.map_congr_left fun t ht => ?_
  dsimp only [Function.comp, known]
  rw [stored_spec bits (hts t ht).2.2.1, List.map_map]
  rfl

/-- Files the theorems apply to: two tensors, of which one is kept; a pair of images. -/
example : trim ([smallTensor, smallTensor].flatMap serialize) "1".toList = some (.rewrite smallTensor.serialize) := by
  decide +kernel
example : IsNumber "12".toList 12 := ⟨by decide, by decide, by decide, by decide⟩
example : makeTensors (fun _ _ => 0) (fun _ => some "aa.png\nbb.png\n".toList)
    (fun n => if n = "i/bb.png".toList then some (.png 8 false ⟨2, 1, 1, [5, 6]⟩)
      else some (.png 8 false ⟨1, 1, 1, [1]⟩)) false [0x010101, 2] "x".toList "i".toList "y".toList "l/".toList =
    .done [⟨1, 1, 1, 1, [fromUchar 1]⟩, ⟨1, 1, 1, 2, [1, 0]⟩] := by decide +kernel

end CN24.Props
