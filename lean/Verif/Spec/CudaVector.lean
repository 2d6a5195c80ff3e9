import Verif.Model.CudaVector

/-!
# What a vector of the device library should do

No memory, pointers, capacities, host and device: a vector is a list.
-/

namespace Knp.Spec
open Knp.CuVec

variable {α : Type}

/-- The contents of vector `i`, if it exists. -/
def contents (ls : List (Option (List α))) (i : Nat) : Option (List α) := (ls[i]?).join

/-- One call on lists, `d` is a default constructed element.  `none`: the call is not allowed (a vector that does not exist, an element that
does not exist). -/
def listStep (d : α) (ls : List (Option (List α))) : Op α → Option (List (Option (List α)) × Ret α)
  | .make n => some (ls ++ [some (List.replicate n d)], .unit)
  | .ofList xs => some (ls ++ [some xs], .unit)
  | .ofArray _ xs => some (ls ++ [some xs], .unit)
  | .copy _ i => (contents ls i).map (fun xs => (ls ++ [some xs], .unit))
  | .moveNew i => (contents ls i).map (fun xs => (ls.set i (some []) ++ [some xs], .unit))
  | .extract i => (contents ls i).map (fun xs => (ls ++ [some xs], .unit))
  | .assign i j => (contents ls i).bind (fun _ => (contents ls j).map (fun ys => (ls.set i (some ys), .unit)))
  | .moveAssign i j => (contents ls i).bind (fun _ => (contents ls j).map (fun ys =>
      (if i = j then ls else (ls.set j (some [])).set i (some ys), .unit)))
  | .assignList i xs => (contents ls i).map (fun _ => (ls.set i (some xs), .unit))
  | .clear i => (contents ls i).map (fun _ => (ls.set i (some []), .unit))
  | .set _ i k x => (contents ls i).map (fun xs => (ls.set i (some (xs.set k x)), .flag (decide (k < xs.length))))
  | .push _ i x => (contents ls i).map (fun xs => (ls.set i (some (xs ++ [x])), .unit))
  | .pushOwn i k => (contents ls i).bind (fun xs => xs[k]?.map (fun x => (ls.set i (some (xs ++ [x])), .unit)))
  | .pop i => (contents ls i).map (fun xs => (ls.set i (some xs.dropLast), .elem (xs.getLastD d)))
  | .reserve _ i _ => (contents ls i).map (fun _ => (ls, .unit))
  | .resize _ i n => (contents ls i).map (fun xs => (ls.set i (some (xs.take n ++ List.replicate (n - xs.length) d)), .unit))
  | .erase _ i a b => (contents ls i).map (fun xs => (ls.set i (some (if a < b then xs.take a ++ xs.drop b else xs)), .unit))
  | .destruct i => (contents ls i).map (fun _ => (ls.set i none, .unit))
  | .toStd i => (contents ls i).map (fun xs => (ls, .list xs))
  | .copyAt i k => (contents ls i).bind (fun xs => xs[k]?.map (fun x => (ls, .elem x)))

/-- Calls one after another. -/
def listRun (d : α) : List (Option (List α)) → List (Op α) → Option (List (Option (List α)) × List (Ret α))
  | ls, [] => some (ls, [])
  | ls, op :: ops => (listStep d ls op).bind (fun r => (listRun d r.1 ops).map (fun q => (q.1, r.2 :: q.2)))

/-- The calls that work: no push of an element of the vector itself, no extraction of an empty vector; for elements that are not trivially
copyable no device copy, push, reserve or growing resize of a vector with elements, no assignment of a non-empty `std::vector`, no erase on the
host that moves elements. -/
def Works (trivial : Bool) (ls : List (Option (List α))) : Op α → Prop
  | .pushOwn _ _ => False
  | .extract i => contents ls i ≠ some []
  | .copy dev i | .push dev i _ | .reserve dev i _ => dev = true → trivial = true ∨ contents ls i = some []
  | .resize dev i n => dev = true → trivial = true ∨ ∀ xs, contents ls i = some xs → xs = [] ∨ n ≤ xs.length
  | .assignList _ xs => trivial = true ∨ xs = []
  | .erase dev i a b => dev = false → trivial = true ∨ ∀ xs, contents ls i = some xs → b ≤ a ∨ xs.length ≤ a ∨ xs.length ≤ b
  | _ => True

/-- All calls of a history work. -/
def WorksAll (trivial : Bool) (d : α) : List (Option (List α)) → List (Op α) → Prop
  | _, [] => True
  | ls, op :: ops => Works trivial ls op ∧ ∀ r, listStep d ls op = some r → WorksAll trivial d r.1 ops

end Knp.Spec
