import Verif.Model.NetConfig

/-
The start of the library: the configuration file and the choice of the OpenCL device
(src/util/Init.cpp: `System::Init`, `System::GetExecutablePath`, `CLHelper::Init`, `CLHelper::CreateProgram`).
Linux.  A file is given by its content, or `none` if it cannot be opened for reading; opening a directory is not modelled.
Messages, the log level, the GUI and the creation of the context, the queue and the kernels are left out.
-/

namespace CN24.Startup
open CN24 CN24.Config

/-- The files that can be read, by the path given to `std::ifstream`. -/
abbrev Files := Str → Option Str

/-- The part of a path up to the last slash: `path.substr(0, path.rfind("/") + 1)`; without a slash `npos + 1` is 0. -/
def directory (path : Str) : Str := (path.reverse.dropWhile (· ≠ '/')).reverse

/-- `GetExecutablePath` (src/util/Init.cpp:173-185) for the target of /proc/self/exe: at most 16383 characters are read, and
the path is empty if the link cannot be read. -/
def executablePath (link : Option Str) : Str :=
  match link with
  | none => []
  | some path => directory (path.take 16383)

/-- Beside the program or else one directory above (src/util/Init.cpp:102-106 and 443-450). -/
def locate (files : Files) (dir name : Str) : Str :=
  if (files (dir ++ name)).isSome then dir ++ name else dir ++ "../".toList ++ name

/-- `platform_number` and `device_number` (src/util/Init.cpp:99-100). -/
structure Numbers where
  platform : Nat
  device : Nat
  deriving DecidableEq, Repr

/-- `ParseUIntIfPossible` (src/util/ConfigParsing.cpp:17-27, 79-83): the new value of the variable. -/
def parseUInt (line identifier : Str) (old : Nat) : Outcome Nat :=
  match setting line identifier with
  | none => .fatal
  | some none => .done old
  | some (some t) => (Outcome.ofOption (atoi t)).bind fun i => .done (toUInt i)

/-- One line of the configuration file (src/util/Init.cpp:117-118). -/
def readLine (line : Str) (n : Numbers) : Outcome Numbers :=
  (parseUInt line "opencl_platform".toList n.platform).bind fun p =>
  (parseUInt line "opencl_device".toList n.device).bind fun d => .done ⟨p, d⟩

def readLines : List Str → Numbers → Outcome Numbers
  | [], n => .done n
  | l :: ls, n => (readLine l n).bind (readLines ls)

/-- The numbers after the configuration file (src/util/Init.cpp:99-124). -/
def numbers (files : Files) (dir : Str) : Outcome Numbers :=
  match files (locate files dir "config".toList) with
  | some text => readLines (NetConfig.linesOf text) ⟨0, 0⟩
  | none => .done ⟨0, 0⟩

variable {Dev : Type _}

/-- The device in `CLHelper::Init` (src/util/Init.cpp:199-234); `platforms` are the devices of each platform.  Arrays of the
numbers of platforms and devices are indexed without a check. -/
def device (platforms : List (List Dev)) (n : Numbers) : Outcome Dev :=
  if platforms.length = 0 then .fatal
  else
    match platforms[n.platform]? with
    | none => .undefined
    | some devices =>
      if devices.length = 0 then .fatal
      else
        match devices[n.device]? with
        | none => .undefined
        | some d => .done d

/-- `System::Init` up to the choice of the device in a build with OpenCL (src/util/Init.cpp:95-126). -/
def chooseDevice (files : Files) (link : Option Str) (platforms : List (List Dev)) : Outcome Dev :=
  (numbers files (executablePath link)).bind (device platforms)

/-- The text that `CreateProgram` compiles (src/util/Init.cpp:434-464). -/
def kernelSource (files : Files) (link : Option Str) (name : Str) : Outcome Str :=
  match files (locate files (executablePath link) name) with
  | none => .fatal
  | some source => .done source

end CN24.Startup
