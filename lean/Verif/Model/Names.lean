import Verif.Model.Tag

/-!
# Names of network objects

Models `knp/base-framework/include/knp/framework/tags/name.h` and `get_name` of `knp/base-framework/impl/visualizer/visualize_network.cpp`.
A string is its number; `stringType` is the number of the type `std::string`, the empty string is 0.
-/

namespace Knp.Names
open Knp

/-- The number of `std::string` among the types of values. -/
def stringType : Nat := 1

/-- `tags::get_name` (name.h:55-62); `uid` is the text of the object's UID. -/
def getName (m : TagMap) (uid : Nat) : Outcome Nat :=
  if m.exists "name" then m.getTypedConst stringType "name" else .ok uid

/-- `tags::set_name` (name.h:77-80). -/
def setName (m : TagMap) (name : Nat) : TagMap := m.assign "name" (.value stringType name)

/-- `get_name` of the visualizer (visualize_network.cpp:92-113); the tags are copied, `uid` are the first characters of the text of the UID. -/
def shownName (m : TagMap) (uid : Nat) : Nat :=
  let name := match (m.getRef "name").2 with
    | .empty => 0
    | .value t v => if t = stringType then v else 0
  if name = 0 then uid else name

/-- What a program does with the tags of an object. -/
inductive Op where
  | tags (o : TagMap.Op)
  | setName (name : Nat)
deriving Repr, DecidableEq

/-- One call. -/
def step (m : TagMap) : Op → TagMap
  | .tags o => m.step o
  | .setName name => setName m name

end Knp.Names
