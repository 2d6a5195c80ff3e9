import Verif.Model.Basic

/-!
# `knp::core::UID` and the sequential UID generator

Models `knp/core-library/include/knp/core/uid.h` and `knp/core-library/impl/uid.cpp`.
A `boost::uuids::uuid` is its 16 bytes.
-/

namespace Knp

/-- `UID::tag` (uid.h:196): 16 bytes. -/
abbrev Uid := List UInt8

namespace Uid

/-- `boost::uuids::nil_uuid()`. -/
def nil : Uid := List.replicate 16 0

/-- `UID::operator bool` (uid.h:164). -/
def toBool (u : Uid) : Bool := !(u == nil)

/-- `operator<` of `boost::uuids::uuid`: lexicographic comparison of the bytes. -/
def bytesLt : List UInt8 → List UInt8 → Bool
  | [], [] => false
  | [], _ :: _ => true
  | _ :: _, [] => false
  | a :: as, b :: bs => if a < b then true else if b < a then false else bytesLt as bs

/-- `UID::operator<` (uid.h:173): note the swapped operands, `uid.tag < tag`. -/
def lt (a b : Uid) : Bool := bytesLt b a

/-- `UID::operator==` (uid.h:182). -/
def eq (a b : Uid) : Bool := b == a

/-- `UID::operator!=` (uid.h:191). -/
def ne (a b : Uid) : Bool := b != a

/-- The byte loop of `continuously_uid_generator::operator()` (uid.cpp:46-51). -/
def encLoop : Nat → Nat → List UInt8
  | 0, _ => []
  | n + 1, c => UInt8.ofNat (c &&& 0xff) :: encLoop n (c >>> 8)

/-- The UUID built from a counter value (uid.cpp:40-53): the low 8 bytes of the nil UUID are
overwritten, least significant byte first. -/
def encode (c : Nat) : Uid := encLoop 8 c ++ List.replicate 8 0

/-! The generator used by several threads.  `tag_counter++` (uid.cpp:41) is one atomic
fetch-and-add on a 64-bit counter; everything else in the call is thread-local. -/

/-- One scheduled action of thread `t`. -/
inductive GenAction where
  /-- the atomic `tag_counter++` of a new request of thread `t` -/
  | fetch (t : Nat)
  /-- thread `t` encodes its fetched value and returns the UID -/
  | finish (t : Nat)
deriving Repr, DecidableEq

/-- Global generator state: the counter (uid.cpp:34), the values fetched by calls still in progress,
and the UIDs returned so far (newest first). -/
structure GenState where
  counter : Nat
  inflight : List (Nat × Nat)
  returned : List Uid
deriving Repr, DecidableEq

/-- Remove the in-flight call of thread `t` (the first if there were several). -/
def takeOut (t : Nat) : List (Nat × Nat) → Option (Nat × List (Nat × Nat))
  | [] => none
  | (t', c) :: l =>
    if t' = t then some (c, l)
    else match takeOut t l with
      | some (c', l') => some (c', (t', c) :: l')
      | none => none

/-- One action; an action that is not possible (finishing without a call) does nothing. -/
def genStep (s : GenState) : GenAction → GenState
  | .fetch t => { s with counter := (s.counter + 1) % two64, inflight := (t, s.counter) :: s.inflight }
  | .finish t =>
    match takeOut t s.inflight with
    | some (c, l) => { s with inflight := l, returned := encode c :: s.returned }
    | none => s

/-- `reset(initial)` (uid.cpp:57-60), or program start with `initial = 1` (uid.cpp:34). -/
def genInit (initial : Nat) : GenState := { counter := initial, inflight := [], returned := [] }

/-- A schedule. -/
def genRun (s : GenState) (sched : List GenAction) : GenState := sched.foldl genStep s

end Uid
end Knp
