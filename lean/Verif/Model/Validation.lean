import Verif.Model.Basic
import Verif.Model.Messages
import Verif.Model.Network

/-!
# Network validation

Models `knp/base-framework/impl/network_validation/executor.cpp` and
`knp/base-framework/impl/network_validation/validators/connectivity.cpp`.
-/

namespace Knp.Validation
open Knp

/-! ## Connectivity validator -/

/-- The two issues of the connectivity validator (connectivity.h:55-66) with the UID that is formatted into
the message; severity is always `error`. -/
inductive ConnIssue where
  | populationNotConnected (u : UID)
  | projectionNotConnected (u : UID)
deriving Repr, DecidableEq

/-- `std::map<UID, std::pair<bool, bool>>` as an association list (the order of the keys in the map is not
modelled). -/
abbrev Info := List (UID × (Bool × Bool))

/-- `info[key] = f(info[key])`, where a missing entry is created as `{false, false}`. -/
def upd (key : UID) (f : Bool × Bool → Bool × Bool) : Info → Info
  | [] => [(key, f (false, false))]
  | (k, v) :: l => if k = key then (k, f v) :: l else (k, v) :: upd key f l

/-- connectivity.cpp:97-105. -/
def fillPopulations {P : Type} (pops : List (PopEntity P)) : Info :=
  pops.foldl (fun info p => upd p.uid (fun _ => (false, false)) info) []

/-- The visitor of one projection (connectivity.cpp:110-134).  `projections_info` is never read. -/
def visitProjection {J : Type} (s : Info × List ConnIssue) (j : ProjEntity J) : Info × List ConnIssue :=
  let pre := j.pre != 0
  let post := j.post != 0
  let info1 := if pre then upd j.pre (fun v => (v.1, true)) s.1 else s.1
  let info2 := if post then upd j.post (fun v => (true, v.2)) info1 else info1
  (info2, if !pre && !post then s.2 ++ [.projectionNotConnected j.uid] else s.2)

/-- `Connectivity::operator()` (connectivity.cpp:79-150). -/
def connectivity {P J : Type} (n : Network P J) : List ConnIssue :=
  let s := n.projections.foldl visitProjection (fillPopulations n.populations, [])
  s.2 ++ s.1.filterMap (fun e => if !e.2.1 && !e.2.2 then some (.populationNotConnected e.1) else none)

/-! ## Executor -/

/-- One issue (report.h:65-84); severities 0, 1, 2 are `info`, `warning`, `error`. -/
structure Issue where
  severity : Nat
  message : String
  code : Int
deriving Repr, DecidableEq

abbrev Report := List Issue

/-- `Executor::ValidatorResult` (executor.h:122-141). -/
structure ValidatorResult where
  uid : UID
  name : String
  report : Report
deriving Repr, DecidableEq

/-- A `std::map<UID, pair<string, Validator>>`, kept in ascending key order; a validator may keep a state
`σ` of its own world and may throw. -/
abbrev VMap (σ E : Type) := List (UID × String × (σ → E → σ × Outcome Report))

/-- `map[uid] = v`. -/
def setV {σ E : Type} (uid : UID) (v : String × (σ → E → σ × Outcome Report)) : VMap σ E → VMap σ E
  | [] => [(uid, v)]
  | (k, w) :: l =>
    if uid = k then (uid, v) :: l else if uid < k then (uid, v) :: (k, w) :: l else (k, w) :: setV uid v l

/-- `add_validator(name, validator)` with the freshly generated UID (executor.cpp:31-36, 48-53, 65-70). -/
def addNamed {σ E : Type} (m : VMap σ E) (uid : UID) (name : String) (v : σ → E → σ × Outcome Report) :
    VMap σ E := setV uid (name, v) m

/-- `add_validator(validator)` (executor.cpp:39-45, 56-62, 73-79): the right side of the assignment is
evaluated first (C++17), so the number is the size before insertion. -/
def addUnnamed {σ E : Type} (pref : String) (m : VMap σ E) (uid : UID)
    (v : σ → E → σ × Outcome Report) : VMap σ E := setV uid (pref ++ " validator #" ++ toString m.length, v) m

/-- `Executor::log_report` (executor.cpp:82-101). -/
def logReport (r : Report) : Outcome Unit :=
  if r.all (fun i => decide (i.severity ≤ 2)) then .ok () else .throw "Unknown severity level."

/-- One application: run, log, push the result (executor.cpp:118-120 and alike). -/
def applyOne {σ E : Type} (k : UID) (name : String) (v : σ → E → σ × Outcome Report)
    (s : σ × Outcome (List ValidatorResult)) (e : E) : σ × Outcome (List ValidatorResult) :=
  match s.2 with
  | .ok acc =>
    match v s.1 e with
    | (w, .ok r) =>
      match logReport r with
      | .ok _ => (w, .ok (acc ++ [⟨k, name, r⟩]))
      | .throw m => (w, .throw m)
      | .ub => (w, .ub)
    | (w, .throw m) => (w, .throw m)
    | (w, .ub) => (w, .ub)
  | o => (s.1, o)

/-- One of the three sections: every validator, every entity (executor.cpp:108-124, 126-142, 144-155). -/
def section_ {σ E : Type} (m : VMap σ E) (es : List E) (s : σ × Outcome (List ValidatorResult)) :
    σ × Outcome (List ValidatorResult) :=
  m.foldl (fun s v => es.foldl (applyOne v.1 v.2.1 v.2.2) s) s

/-- The executor's three maps (executor.h:160-164). -/
structure Executor (σ P J : Type) where
  pops : VMap σ (PopEntity P)
  projs : VMap σ (ProjEntity J)
  nets : VMap σ (Network P J)

/-- `Executor::run_validators` (executor.cpp:104-158). -/
def runValidators {σ P J : Type} (x : Executor σ P J) (w : σ) (n : Network P J) :
    σ × Outcome (List ValidatorResult) :=
  section_ x.nets [n] (section_ x.projs n.projections (section_ x.pops n.populations (w, .ok [])))

/-- Registration calls. -/
inductive Add (σ P J : Type) where
  | pop (uid : UID) (name : String) (v : σ → PopEntity P → σ × Outcome Report)
  | popUnnamed (uid : UID) (v : σ → PopEntity P → σ × Outcome Report)
  | proj (uid : UID) (name : String) (v : σ → ProjEntity J → σ × Outcome Report)
  | projUnnamed (uid : UID) (v : σ → ProjEntity J → σ × Outcome Report)
  | net (uid : UID) (name : String) (v : σ → Network P J → σ × Outcome Report)
  | netUnnamed (uid : UID) (v : σ → Network P J → σ × Outcome Report)

/-- One registration. -/
def Executor.add {σ P J : Type} (x : Executor σ P J) : Add σ P J → Executor σ P J
  | .pop u n v => { x with pops := addNamed x.pops u n v }
  | .popUnnamed u v => { x with pops := addUnnamed "Population" x.pops u v }
  | .proj u n v => { x with projs := addNamed x.projs u n v }
  | .projUnnamed u v => { x with projs := addUnnamed "Projection" x.projs u v }
  | .net u n v => { x with nets := addNamed x.nets u n v }
  | .netUnnamed u v => { x with nets := addUnnamed "Network" x.nets u v }

/-- The UID of a registration. -/
def Add.uid {σ P J : Type} : Add σ P J → UID
  | .pop u _ _ => u | .popUnnamed u _ => u | .proj u _ _ => u | .projUnnamed u _ => u
  | .net u _ _ => u | .netUnnamed u _ => u

/-- A new executor after a list of registrations. -/
def Executor.run {σ P J : Type} (ops : List (Add σ P J)) : Executor σ P J :=
  ops.foldl Executor.add { pops := [], projs := [], nets := [] }

end Knp.Validation
