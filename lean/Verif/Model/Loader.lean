import Verif.Model.Basic

/-!
# The backend loader

Models `/repo/knp/base-framework/impl/backend_loader.cpp`.  The file system is part of the state: files come, change and go between calls.  Dynamic
loading itself (boost::dll, the decorations of file names) is not modelled: a path leads to nothing, to a library without the function
`create_knp_backend`, or to one with it.
-/

namespace Knp.Libs
open Knp

/-- What a library's `create_knp_backend` does when it is called: gives a backend, a null pointer, or throws. -/
inductive Creates where
  | backend | null | throws
deriving Repr, DecidableEq

/-- A loaded `create_knp_backend`; `library` says which one it is. -/
structure Creator where
  library : Nat
  creates : Creates
deriving Repr, DecidableEq

/-- What a path leads to: nothing that can be loaded (`none`), or a library with or without the function. -/
abbrev Files := String → Option (Option Creator)

/-- The loader (backend_loader.h:81, `creators_`), the file system, and the number of backends made so far, which numbers them. -/
structure State where
  creators : List (String × Creator)
  files : Files
  made : Nat

/-- `make_creator` (backend_loader.cpp:34-57): a creator found before is used again; otherwise the library is loaded (`import_alias` throws if there
is none or it has no such function) and the creator is kept. -/
def makeCreator (s : State) (path : String) : State × Outcome Creator :=
  match s.creators.lookup path with
  | some c => (s, .ok c)
  | none =>
    match s.files path with
    | some (some c) => ({ s with creators := (path, c) :: s.creators }, .ok c)
    | _ => (s, .throw "boost::dll")

/-- `load` (backend_loader.cpp:60-71): the backend is identified by the library that made it and its number. -/
def load (s : State) (path : String) : State × Outcome (Nat × Nat) :=
  match makeCreator s path with
  | (s, .ok c) =>
    match c.creates with
    | .backend => ({ s with made := s.made + 1 }, .ok (c.library, s.made))
    | .null => (s, .throw ("Couldn't load backend from path \"" ++ path ++ "\""))
    | .throws => (s, .throw "create_knp_backend")
  | (s, .throw e) => (s, .throw e)
  | (s, .ub) => (s, .ub)

/-- `is_backend` (backend_loader.cpp:74-80): the constructor of `shared_library` throws if nothing can be loaded. -/
def isBackend (s : State) (path : String) : Outcome Bool :=
  match s.files path with
  | none => .throw "boost::dll"
  | some l => .ok l.isSome

/-- What happens to a loader: `load`, or somebody changes what a path leads to.  (`is_backend` changes nothing.) -/
inductive Event where
  | load (path : String)
  | change (path : String) (content : Option (Option Creator))

def exec (s : State) : Event → State
  | .load p => (load s p).1
  | .change p c => { s with files := fun q => if q = p then c else s.files q }

def run (s : State) (es : List Event) : State := es.foldl exec s

/-- A new loader. -/
def start (files : Files) : State := ⟨[], files, 0⟩

end Knp.Libs
