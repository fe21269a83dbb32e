import Verif.Model.Startup
import Verif.Props.TrainSettings

/-! C97: the configuration file of the library and the OpenCL device it selects. -/

namespace CN24.Startup
open CN24 CN24.Config CN24.Props

/-- The lines of a configuration file. -/
inductive ConfigLine where
  | platform (n : Nat)
  | device (n : Nat)
  | other (text : Str)

def ConfigLine.text : ConfigLine → Str
  | .platform n => "opencl_platform=".toList ++ NetConfig.num n
  | .device n => "opencl_device=".toList ++ NetConfig.num n
  | .other t => t

/-- Numbers that fit an `int`; other lines do not begin with the words of the settings. -/
def ConfigLine.Ok : ConfigLine → Prop
  | .platform n => n ≤ 2147483647
  | .device n => n ≤ 2147483647
  | .other t => '\n' ∉ t ∧ ¬ "opencl_platform".toList <+: t ∧ ¬ "opencl_device".toList <+: t

def ConfigLine.platform? : ConfigLine → Option Nat
  | .platform n => some n
  | _ => none

def ConfigLine.device? : ConfigLine → Option Nat
  | .device n => some n
  | _ => none

/-- The last of the numbers, 0 if there is none. -/
def lastOf (l : List Nat) : Nat := l.getLast?.getD 0

theorem parse_self {w : Str} {n : Nat} (h : n ≤ 2147483647) (old : Nat) :
    parseUInt (w ++ '=' :: NetConfig.num n) w old = .done n := by
  unfold parseUInt
  rw [setting_self]
  dsimp only
  rw [atoi_num h]
  show Outcome.done (toUInt n) = _
  unfold toUInt
  congr 1
  omega

theorem parse_other {t w : Str} (h : ¬ w <+: t) (old : Nat) : parseUInt t w old = .done old := by
  unfold parseUInt
  rw [setting_other h]

theorem cross (v : Str) : ¬ "opencl_device".toList <+: "opencl_platform=".toList ++ v ∧
    ¬ "opencl_platform".toList <+: "opencl_device=".toList ++ v := by
  constructor
  · rintro ⟨r, h⟩
    have := congrArg (fun l => l[7]?) h
    simp at this
  · rintro ⟨r, h⟩
    have := congrArg (fun l => l[7]?) h
    simp at this

theorem readLine_config {l : ConfigLine} (h : l.Ok) (n : Numbers) :
    readLine l.text n = .done ⟨l.platform?.getD n.platform, l.device?.getD n.device⟩ := by
  unfold readLine
  cases l with
  | platform k =>
    rw [show (ConfigLine.platform k).text = "opencl_platform".toList ++ '=' :: NetConfig.num k from rfl, parse_self h]
    rw [Outcome.bind_done, parse_other (t := "opencl_platform".toList ++ '=' :: NetConfig.num k) (cross (NetConfig.num k)).1]
    rfl
  | device k =>
    rw [parse_other (t := (ConfigLine.device k).text) (cross (NetConfig.num k)).2, Outcome.bind_done]
    rw [show (ConfigLine.device k).text = "opencl_device".toList ++ '=' :: NetConfig.num k from rfl, parse_self h]
    rfl
  | other t =>
    rw [parse_other (t := (ConfigLine.other t).text) h.2.1, Outcome.bind_done, parse_other (t := (ConfigLine.other t).text) h.2.2]
    rfl

theorem readLines_config : ∀ (ls : List ConfigLine) (_ : ∀ l ∈ ls, l.Ok) (n : Numbers),
    readLines (ls.map ConfigLine.text) n =
      .done ⟨(ls.filterMap ConfigLine.platform?).getLast?.getD n.platform, (ls.filterMap ConfigLine.device?).getLast?.getD n.device⟩
  | [], _, n => rfl
  | l :: ls, h, n => by
    rw [List.map_cons, readLines, readLine_config (h l (by simp)), Outcome.bind_done,
      readLines_config ls (fun l hl => h l (by simp [hl]))]
    have fm : ∀ {β : Type} (f : ConfigLine → Option β), (l :: ls).filterMap f = (f l).toList ++ ls.filterMap f := by
      intro β f
      rw [List.filterMap_cons]
      cases f l <;> rfl
    rw [fm, fm, getLast_cons, getLast_cons]

theorem text_oneLine {l : ConfigLine} (h : l.Ok) : '\n' ∉ l.text := by
  have hn : ∀ n, '\n' ∉ NetConfig.num n := fun n hm => absurd ((num_digits n).2 _ hm) (by decide)
  cases l with
  | platform n => intro hm; rcases List.mem_append.1 hm with hm | hm; exact absurd hm (by decide); exact hn n hm
  | device n => intro hm; rcases List.mem_append.1 hm with hm | hm; exact absurd hm (by decide); exact hn n hm
  | other t => exact h.1

/-- The configuration file of a program in `dir`: the one beside it, or else the one in the directory above. -/
def configFile (files : Files) (dir : Str) : Option Str :=
  (files (dir ++ "config".toList)).or (files (dir ++ "../config".toList))

theorem configFile_located (files : Files) (dir name : Str) :
    files (locate files dir name) = (files (dir ++ name)).or (files (dir ++ "../".toList ++ name)) := by
  unfold locate
  cases h : files (dir ++ name) with
  | none => rw [if_neg (by simp)]; rfl
  | some t => rw [if_pos (by simp), h]; rfl

/-- C97: a program at `dir ++ name` looks for files in `dir`. -/
theorem C97_directory (dir name : Str) (hd : dir = [] ∨ dir.getLast? = some '/') (hn : '/' ∉ name)
    (hl : (dir ++ name).length ≤ 16383) : executablePath (some (dir ++ name)) = dir := by
  unfold executablePath directory
  dsimp only
  rw [List.take_of_length_le hl, List.reverse_append, List.dropWhile_append_of_pos]
  · rcases hd with rfl | hd
    · rfl
    · rw [← List.head?_reverse] at hd
      cases hr : dir.reverse with
      | nil => rw [hr] at hd; cases hd
      | cons c r =>
        rw [hr, List.head?_cons, Option.some.injEq] at hd
        subst hd
        rw [List.dropWhile_cons_of_neg (by simp), ← hr, List.reverse_reverse]
  · intro c hc
    rw [List.mem_reverse] at hc
    simp only [decide_eq_true_eq]
    intro e
    subst e
    exact hn hc

/-- C97: the numbers of platform and device are those of the last lines that set them, 0 if there are none. -/
theorem C97_settings_partial (files : Files) (dir : Str) (lines : List ConfigLine) (hne : lines ≠ []) (hok : ∀ l ∈ lines, l.Ok)
    (hf : configFile files dir = some (NetConfig.joinLines (lines.map ConfigLine.text))) :
    numbers files dir =
      .done ⟨lastOf (lines.filterMap ConfigLine.platform?), lastOf (lines.filterMap ConfigLine.device?)⟩ := by
  unfold numbers
  rw [configFile_located files, show dir ++ "../".toList ++ "config".toList = dir ++ "../config".toList by simp]
  have hf' : (files (dir ++ "config".toList)).or (files (dir ++ "../config".toList)) = _ := hf
  rw [hf']
  dsimp only
  rw [NetConfig.linesOf_joinLines (by simpa using hne)]
  · exact readLines_config lines hok ⟨0, 0⟩
  · intro l hl
    obtain ⟨i, hi, rfl⟩ := List.mem_map.1 hl
    exact text_oneLine (hok i hi)

/-- C97: without a configuration file both numbers are 0. -/
theorem C97_defaults (files : Files) (dir : Str) (hf : configFile files dir = none) : numbers files dir = .done ⟨0, 0⟩ := by
  unfold numbers
  rw [configFile_located files, show dir ++ "../".toList ++ "config".toList = dir ++ "../config".toList by simp]
  have hf' : (files (dir ++ "config".toList)).or (files (dir ++ "../config".toList)) = _ := hf
  rw [hf']

/-- C97: if the numbers are those of a device, this device is used; without platforms, or without devices of the platform, the
program ends with a message. -/
theorem C97_device_partial {Dev : Type _} (files : Files) (link : Option Str) (platforms : List (List Dev)) (lines : List ConfigLine)
    (hne : lines ≠ []) (hok : ∀ l ∈ lines, l.Ok)
    (hf : configFile files (executablePath link) = some (NetConfig.joinLines (lines.map ConfigLine.text))) :
    (∀ devices d, platforms[lastOf (lines.filterMap ConfigLine.platform?)]? = some devices →
      devices[lastOf (lines.filterMap ConfigLine.device?)]? = some d → chooseDevice files link platforms = .done d) ∧
    (platforms = [] → chooseDevice files link platforms = .fatal) ∧
    (platforms[lastOf (lines.filterMap ConfigLine.platform?)]? = some [] → chooseDevice files link platforms = .fatal) := by
  unfold chooseDevice
  rw [C97_settings_partial files _ lines hne hok hf, Outcome.bind_done]
  refine ⟨fun devices d h1 h2 => ?_, fun h => ?_, fun h => ?_⟩
  · unfold device
    have hp : platforms.length ≠ 0 := by
      intro h0
      rw [List.length_eq_zero_iff.1 h0] at h1
      simp at h1
    have hd : devices.length ≠ 0 := by
      intro h0
      rw [List.length_eq_zero_iff.1 h0] at h2
      simp at h2
    rw [if_neg hp]
    dsimp only
    rw [h1]
    dsimp only
    rw [if_neg hd, h2]
  · unfold device
    rw [h]
    rfl
  · unfold device
    have hp : platforms.length ≠ 0 := by
      intro h0
      rw [List.length_eq_zero_iff.1 h0] at h
      simp at h
    rw [if_neg hp]
    dsimp only
    rw [h]
    rfl

/-- C97, exactly when it fails: a number that no platform or no device has is used as an index anyway. -/
theorem C97_missing_device_undefined {Dev : Type _} (platforms : List (List Dev)) (n : Numbers) (h : platforms ≠ []) :
    device platforms n = .undefined ↔
      platforms.length ≤ n.platform ∨
        ∃ devices, platforms[n.platform]? = some devices ∧ devices ≠ [] ∧ devices.length ≤ n.device := by
  unfold device
  rw [if_neg (by simpa using h)]
  cases hp : platforms[n.platform]? with
  | none =>
    rw [List.getElem?_eq_none_iff] at hp
    exact ⟨fun _ => Or.inl hp, fun _ => rfl⟩
  | some devices =>
    have hlt : n.platform < platforms.length := by
      obtain ⟨h, _⟩ := List.getElem?_eq_some_iff.1 hp
      exact h
    dsimp only
    by_cases hd : devices = []
    · subst hd
      rw [if_pos List.length_nil]
      refine ⟨fun h => (by cases h), ?_⟩
      rintro (h | ⟨d, h1, h2, _⟩)
      · omega
      · exact absurd (Option.some.inj h1).symm h2
    · rw [if_neg (by simpa using hd)]
      cases hv : devices[n.device]? with
      | none =>
        rw [List.getElem?_eq_none_iff] at hv
        exact ⟨fun _ => Or.inr ⟨devices, rfl, hd, hv⟩, fun _ => rfl⟩
      | some d =>
        have hlt2 : n.device < devices.length := by
          obtain ⟨h, _⟩ := List.getElem?_eq_some_iff.1 hv
          exact h
        refine ⟨fun h => (by cases h), ?_⟩
        rintro (h | ⟨d', h1, _, h3⟩)
        · omega
        · have := Option.some.inj h1
          subst this
          omega

/-- C97: a word that only begins like a setting changes it: the line "opencl_device_name=7" sets the device to 0. -/
theorem C97_longer_word : ∃ files : Files,
    configFile files [] = some "opencl_device=3\nopencl_device_name=7".toList ∧ numbers files [] = .done ⟨0, 0⟩ := by
  refine ⟨fun p => if p = "config".toList then some "opencl_device=3\nopencl_device_name=7".toList else none, by decide, ?_⟩
  decide +kernel

/-- C97: a setting without anything behind it ends the program with an exception. -/
theorem C97_bare_word : readLine "opencl_device".toList ⟨0, 0⟩ = .fatal := by decide +kernel

/-- C97: the kernels are taken from beside the program or else from the directory above; if they are in neither the program ends
with a message. -/
theorem C97_kernels (files : Files) (link : Option Str) (name : Str) :
    kernelSource files link name =
      match (files (executablePath link ++ name)).or (files (executablePath link ++ "../".toList ++ name)) with
      | some s => .done s
      | none => .fatal := by
  unfold kernelSource
  rw [configFile_located files]
  cases (files (executablePath link ++ name)).or (files (executablePath link ++ "../".toList ++ name)) <;> rfl

/-- C97: if the place of the program is not known, everything is looked for in the working directory or the one above. -/
theorem C97_unknown_place {Dev : Type _} (files : Files) (name : Str) (platforms : List (List Dev)) :
    kernelSource files none name = (match (files name).or (files ("../".toList ++ name)) with
      | some s => .done s
      | none => .fatal) ∧
    ((files "config".toList).or (files "../config".toList) = none → platforms ≠ [] →
      ∀ d ds, platforms[0]? = some (d :: ds) → chooseDevice files none platforms = .done d) := by
  refine ⟨C97_kernels files none name, fun h hne d ds hp => ?_⟩
  have hn : numbers files (executablePath none) = .done ⟨0, 0⟩ := C97_defaults files [] h
  unfold chooseDevice
  rw [hn, Outcome.bind_done]
  unfold device
  rw [if_neg (by simpa using hne)]
  dsimp only
  rw [hp]
  rfl

/-- Non-vacuity: a program in /opt/cn24/ with a configuration file in /opt/cn24/../. -/
example : chooseDevice (fun p => if p = "/opt/cn24/../config".toList then some "# GPU\nopencl_device=1\nopencl_device=0\nopencl_platform=1\n".toList else none)
    (some "/opt/cn24/trainNetwork".toList) [["a"], ["b", "c"]] = .done "b" := by decide +kernel
example : NetConfig.joinLines ([.other "# GPU".toList, .device 1, .device 0, .platform 1, .other []].map ConfigLine.text) =
    "# GPU\nopencl_device=1\nopencl_device=0\nopencl_platform=1\n".toList := by decide +kernel
example : kernelSource (fun p => if p = "../kernels/a.cl".toList then some "x".toList else none) none "kernels/a.cl".toList =
    .done "x".toList := by decide +kernel

end CN24.Startup
