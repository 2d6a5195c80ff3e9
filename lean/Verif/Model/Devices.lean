import Verif.Model.Messages

/-!
# Devices

Models `knp/backends/cpu/cpu-devices/impl/{x86_cpu, unknown_cpu}.cpp`, `get_devices` of the CPU backends and `select_devices` of
`knp/core-library/impl/backend.cpp`.  UIDs are numbers; `fresh` is the generator: UIDs `fresh`, `fresh + 1`, … have not been given to anything.
Power is in `Verif.Model.Power`.
-/

namespace Knp.Dev
open Knp

/-- `CPU` (cpu.h:121-126) with its base `Device` (device.h:104-109).  `socket` is `none` when `cpu_num_` was never written. -/
structure Cpu where
  uid : UID
  socket : Option Nat
  name : String
deriving Repr, DecidableEq

/-- The machine: what the library was built for and what PCM tells. -/
inductive Platform where
  | x86 (brand : String) (online : List Bool)
  | unknown
deriving Repr, DecidableEq

/-- The name of a processor (x86_cpu.cpp:56-57, unknown_cpu.cpp:52). -/
def nameOf : Platform → Nat → String
  | .x86 brand _, k => brand ++ " " ++ toString k
  | .unknown, k => "Unknown CPU " ++ toString k

/-- `CPU(cpu_num)` (x86_cpu.cpp:49-59, unknown_cpu.cpp:50-54); `named` makes UIDs from names.  The base takes a new UID first. -/
def construct (named : String → UID) (pl : Platform) (k fresh : Nat) : Cpu × Nat := (⟨named (nameOf pl k), some k, nameOf pl k⟩, fresh + 1)

/-- `CPU(CPU&&)` (x86_cpu.cpp:62, unknown_cpu.cpp:57): the base is default-constructed, so it gets a new UID; on x86 `cpu_num_` is not
initialised. -/
def move (pl : Platform) (c : Cpu) (fresh : Nat) : Cpu × Nat :=
  match pl with
  | .x86 _ _ => (⟨fresh, none, c.name⟩, fresh + 1)
  | .unknown => (⟨fresh, c.socket, c.name⟩, fresh + 1)

/-- The sockets processors are listed for (x86_cpu.cpp:124-127, unknown_cpu.cpp:99). -/
def sockets : Platform → List Nat
  | .x86 _ online => (List.range online.length).filter (fun k => online.getD k false)
  | .unknown => [0]

/-- A loop with the generator. -/
def thread {α β : Type} (f : α → Nat → β × Nat) : List α → Nat → List β × Nat
  | [], fresh => ([], fresh)
  | a :: l, fresh =>
    let (b, fresh) := f a fresh
    let (bs, fresh) := thread f l fresh
    (b :: bs, fresh)

/-- `list_processors` (x86_cpu.cpp:100-130, unknown_cpu.cpp:95-102): each processor is moved into the vector. -/
def listProcessors (named : String → UID) (pl : Platform) (fresh : Nat) : List Cpu × Nat :=
  thread (fun k fresh => let (c, fresh) := construct named pl k fresh; move pl c fresh) (sockets pl) fresh

/-- `get_devices` of the CPU backends (cpu-single-threaded-backend/impl/backend.cpp:189-203, cpu-multi-threaded-backend/impl/backend.cpp:371-385):
each is moved again. -/
def getDevices (named : String → UID) (pl : Platform) (fresh : Nat) : List Cpu × Nat :=
  let (cs, fresh) := listProcessors named pl fresh
  thread (move pl) cs fresh

/-- `get_socket_number` (x86_cpu.cpp:88-91). -/
def socketNumber (c : Cpu) : Outcome Nat :=
  match c.socket with
  | some k => .ok k
  | none => .ub

/-! ## Selecting -/

/-- `Backend::select_devices` (backend.cpp:177-195): `found` is what `get_devices` returns in this call, `current` the devices selected, `uids` the
UIDs of the set. -/
def selectDevices {D : Type} (uid : D → UID) (found : List D) (current : List D) (uids : List UID) : Outcome (List D) :=
  match found.find? (fun d => uids.contains (uid d)) with
  | some d => .ok (current ++ [d])
  | none => if uids.length ≠ current.length then .throw "Not all devices were selected." else .ok current

end Knp.Dev
