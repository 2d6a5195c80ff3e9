import Verif.Model.Basic

/-!
# `knp::core::TagMap`

Models `knp/core-library/include/knp/core/tag.h`.
-/

namespace Knp

/-- `std::any`: empty, or a value with its dynamic type.  Types are numbered and a value is its
number within the type (only equality of types matters to `any_cast`). -/
inductive AnyVal where
  | empty
  | value (type : Nat) (val : Nat)
deriving Repr, DecidableEq

/-- `TagMap::tags_` (tag.h:134), a `std::map<std::string, std::any>` as an association list. -/
structure TagMap where
  entries : List (String × AnyVal)
deriving Repr, DecidableEq

namespace TagMap

/-- `std::map::find`. -/
def find (m : TagMap) (name : String) : Option AnyVal :=
  (m.entries.find? (fun e => e.1 == name)).map Prod.snd

/-- `std::map::operator[]`: inserts an empty `std::any` if the key is absent. -/
def touch (m : TagMap) (name : String) : TagMap :=
  match m.find name with
  | some _ => m
  | none => { entries := m.entries ++ [(name, .empty)] }

/-- Non-const `get_tag(name)` / `operator[]` read (tag.h:50, 102). -/
def getRef (m : TagMap) (name : String) : TagMap × AnyVal :=
  let m' := m.touch name
  (m', (m'.find name).getD .empty)

/-- Assignment through the returned reference, `tags[name] = value`. -/
def assign (m : TagMap) (name : String) (v : AnyVal) : TagMap :=
  { entries := (m.touch name).entries.map (fun e => if e.1 == name then (e.1, v) else e) }

/-- Const `get_tag(name)` (tag.h:61): `std::map::at` throws for an absent key. -/
def getConst (m : TagMap) (name : String) : Outcome AnyVal :=
  match m.find name with
  | some v => .ok v
  | none => .throw "out_of_range"

/-- `std::any_cast<T&>`: throws unless the value has exactly the requested type. -/
def anyCast (type : Nat) : AnyVal → Outcome Nat
  | .empty => .throw "bad_any_cast"
  | .value t v => if t = type then .ok v else .throw "bad_any_cast"

/-- Non-const typed `get_tag<T>(name)` (tag.h:73-76); the map is touched before the cast can throw. -/
def getTyped (m : TagMap) (type : Nat) (name : String) : TagMap × Outcome Nat :=
  let (m', v) := m.getRef name
  (m', anyCast type v)

/-- Const typed `get_tag<T>(name)` (tag.h:90-93). -/
def getTypedConst (m : TagMap) (type : Nat) (name : String) : Outcome Nat :=
  match m.getConst name with
  | .ok v => anyCast type v
  | .throw w => .throw w
  | .ub => .ub

/-- `exists` (tag.h:130). -/
def «exists» (m : TagMap) (name : String) : Bool := (m.find name).isSome

/-- `empty` (tag.h:120). -/
def isEmpty (m : TagMap) : Bool := m.entries.isEmpty

/-- Public calls that can change a tag map. -/
inductive Op where
  | read (name : String)
  | write (name : String) (v : AnyVal)
  | readTyped (type : Nat) (name : String)
deriving Repr, DecidableEq

/-- State change of a call. -/
def step (m : TagMap) : Op → TagMap
  | .read n => (m.getRef n).1
  | .write n v => m.assign n v
  | .readTyped t n => (m.getTyped t n).1

/-- A freshly constructed map. -/
def mkEmpty : TagMap := { entries := [] }

end TagMap
end Knp
