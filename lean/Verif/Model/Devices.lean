import Verif.Model.DataIO
import Verif.Model.MultiDevice

/-
Choosing devices (/repo/nbody/nbody_engine_opencl.cpp:329-332, 385-502, /repo/nbody/nbody_engine_cuda.cpp:576-616).

Simplifications: messages and the listing of platforms in verbose mode are left out; `QString::toUInt` and `toInt` are
parameters; of OpenCL only the number of devices of each platform is known, and whether a context and a program can be
made for a device.
-/

namespace NB

/-- /repo/nbody/nbody_engine_opencl.cpp:473-474, 420, 451, 462, what the machine offers: the number of devices of
each platform, whether the program can be built for a device (otherwise `cl::Error` is thrown), and
`QString::toUInt`. -/
structure ClMachine where
  platforms : List Nat
  builds : Nat → Nat → Bool
  toUInt : List Char → Option Nat

/-- /repo/nbody/nbody_engine_opencl.cpp:265-285, a device with its context: platform, number of the device, number of
the context. -/
structure ClDev where
  platform : Nat
  device : Nat
  context : Nat
  deriving DecidableEq

/-- /repo/nbody/nbody_engine_opencl.cpp:152, 171, `m_devices` and `m_all_in_same_context`, and the number of contexts
made so far. -/
structure ClChoice where
  devices : List ClDev
  same : Bool
  contexts : Nat
  deriving DecidableEq

/-- /repo/nbody/nbody_engine_opencl.cpp:287-307, a new engine. -/
def ClChoice.fresh : ClChoice := ⟨[], false, 0⟩

/-- /repo/nbody/nbody_engine_opencl.cpp:427-443, the numbers of the devices; `none` is `return false`. -/
def readIds (toUInt : List Char → Option Nat) (count : Nat) : List (List Char) → Option (List Nat)
  | [] => some []
  | t :: ts =>
    match toUInt t with
    | none => none
    | some n =>
      if n < count then
        match readIds toUInt count ts with
        | none => none
        | some r => some (n :: r)
      else none

/-- /repo/nbody/nbody_engine_opencl.cpp:453-463, one device after the other; the flag is false when `cl::Error` is
thrown (then line 497 returns -1). -/
def addDevices (m : ClMachine) (platform context : Nat) : List Nat → ClChoice → ClChoice × Bool
  | [], c => (c, true)
  | n :: ns, c =>
    if m.builds platform n then addDevices m platform context ns { c with devices := c.devices ++ [⟨platform, n, context⟩] }
    else (c, false)

/-- /repo/nbody/nbody_engine_opencl.cpp:392-463, one entry. -/
def addEntry (m : ClMachine) (text : List Char) (c : ClChoice) : ClChoice × Bool :=
  match splitOn ':' text with
  | [a, b] =>
    match m.toUInt a with
    | none => (c, false)
    | some p =>
      match m.platforms[p]? with
      | none => (c, false)
      | some count =>
        match readIds m.toUInt count (splitOn ',' b) with
        | none => (c, false)
        | some ns => addDevices m p c.contexts ns { c with contexts := c.contexts + 1 }
  | _ => (c, false)

/-- /repo/nbody/nbody_engine_opencl.cpp:385-466, the inner `select_devices`. -/
def addEntries (m : ClMachine) : List (List Char) → ClChoice → ClChoice × Bool
  | [], c => (c, true)
  | t :: ts, c =>
    match addEntry m t c with
    | (c, false) => (c, false)
    | (c, true) => addEntries m ts c

/-- /repo/nbody/nbody_engine_opencl.cpp:468-502, `select_devices`; the flag tells whether it returns 0 (`isPowerOfTwo` is in
Model/MultiDevice.lean). -/
def clSelect (m : ClMachine) (text : List Char) (c : ClChoice) : ClChoice × Bool :=
  let list := splitOn ';' text
  match addEntries m list c with
  | (c, false) => (c, false)
  | (c, true) =>
    if isPowerOfTwo c.devices.length then ({ c with same := list.length == 1 }, true)
    else (c, false)

/-- /repo/nbody/nbody_engine_cuda.cpp:593-612, the loop over the texts; `none` is `return -1`. -/
def cudaIds (toInt : List Char → Option Int) (count : Int) : List (List Char) → Option (List Int)
  | [] => some []
  | t :: ts =>
    match toInt t with
    | none => none
    | some n =>
      if n < 0 ∨ count ≤ n then none
      else
        match cudaIds toInt count ts with
        | none => none
        | some r => some (n :: r)

/-- /repo/nbody/nbody_engine_cuda.cpp:576-616, `select_devices`: `m_device_ids` afterwards and whether 0 is returned.
`count` is the answer of `cudaGetDeviceCount`. -/
def cudaSelect (toInt : List Char → Option Int) (count : Option Int) (text : List Char) (ids : List Int) :
    List Int × Bool :=
  let list := splitSkip ',' text
  if list = [] then (ids, false)
  else
    match count with
    | none => (ids, false)
    | some count =>
      match cudaIds toInt count list with
      | none => (ids, false)
      | some new => (new, true)

/-- /repo/nbody/nbody_engine_cuda.cpp:50, a new engine has device 0. -/
def cudaFresh : List Int := [0]

end NB
