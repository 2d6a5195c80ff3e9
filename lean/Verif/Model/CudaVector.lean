import Verif.Model.Basic

/-!
# CUDAVector

Models `knp/backends/gpu/cuda-backend/impl/cuda_lib/{vector.cuh, vector_kernels.cuh, cu_alloc.cuh, extraction.cuh}`: vectors in device
memory, used from the host and from the device (`dev`).

Device memory is a list of blocks; a freed block stays in the list as `none`, so addresses are never used again (a program cannot tell
except by using a freed block, which is undefined behaviour here).  A cell of a block is `none` until an element is constructed in it.
`trivial` says whether the element type is trivially copyable: then assigning to a cell and destroying it need no element in it.

Kernels run one thread per element and each thread touches only its own elements, so they are modelled as one operation on a range.
Simplifications: element types have value semantics and a moved-from element keeps its value; sizes do not exceed `size_t`; calls of the
CUDA runtime do not fail.
-/

namespace Knp.CuVec
open Knp

variable {α : Type}

/-- Device memory. -/
structure Mem (α : Type) where
  blocks : List (Option (List (Option α)))
deriving Repr, DecidableEq

/-- What never changes: whether elements are trivially copyable, `sizeof(T)`, the default constructed element. -/
structure Elem (α : Type) where
  trivial : Bool
  bytes : Nat
  default : α

/-- The block a pointer points to. -/
def Mem.cells (m : Mem α) (p : Option Nat) : Option (List (Option α)) :=
  match p with
  | none => none
  | some a => (m.blocks[a]?).join

/-- `allocate` (cu_alloc.cuh:48-61). -/
def Mem.alloc (m : Mem α) (n : Nat) : Mem α × Option Nat :=
  if n = 0 then (m, none) else (⟨m.blocks ++ [some (List.replicate n none)]⟩, some m.blocks.length)

/-- `deallocate` (cu_alloc.cuh:74-77). -/
def Mem.free (m : Mem α) (p : Option Nat) : Outcome (Mem α) :=
  match p with
  | none => .ok m
  | some a =>
    match m.cells p with
    | some _ => .ok ⟨m.blocks.set a none⟩
    | none => .ub

/-- The cells of a block are replaced. -/
def Mem.store (m : Mem α) (p : Option Nat) (cs : List (Option α)) : Mem α :=
  match p with
  | none => m
  | some a => ⟨m.blocks.set a (some cs)⟩

/-- Elements are constructed, or copied bitwise, into the cells from `off` on (construct_kernel, copy_construct_kernel,
move_construct_kernel, vector_kernels.cuh:43-63, 86-93; `cudaMemcpy`). -/
def Mem.write (m : Mem α) (p : Option Nat) (off : Nat) (xs : List α) : Outcome (Mem α) :=
  if xs = [] then .ok m
  else match m.cells p with
    | none => .ub
    | some cs =>
      if off + xs.length ≤ cs.length then .ok (m.store p (cs.take off ++ xs.map some ++ cs.drop (off + xs.length))) else .ub

/-- Elements are assigned (`data_[i] = x`). -/
def Mem.assign (e : Elem α) (m : Mem α) (p : Option Nat) (off : Nat) (xs : List α) : Outcome (Mem α) :=
  if xs = [] then .ok m
  else match m.cells p with
    | none => .ub
    | some cs =>
      if e.trivial || (((cs.drop off).take xs.length).all (·.isSome)) then m.write p off xs else .ub

/-- On the device elements are assigned, on the host constructed or copied bitwise (vector.cuh:190-199, 320-330, 380-410, 516-534). -/
def Mem.fill (e : Elem α) (m : Mem α) (dev : Bool) (p : Option Nat) (off : Nat) (xs : List α) : Outcome (Mem α) :=
  if dev then m.assign e p off xs else m.write p off xs

/-- A block is freed if a condition holds. -/
def Mem.freeIf (m : Mem α) (c : Prop) [Decidable c] (p : Option Nat) : Outcome (Mem α) := if c then m.free p else .ok m

/-- `n` elements from `off` on are destroyed (destruct_kernel, vector_kernels.cuh:96-104). -/
def Mem.destroy (e : Elem α) (m : Mem α) (p : Option Nat) (off n : Nat) : Outcome (Mem α) :=
  if n = 0 then .ok m
  else match m.cells p with
    | none => .ub
    | some cs =>
      if off + n ≤ cs.length then
        if e.trivial || (((cs.drop off).take n).all (·.isSome)) then
          .ok (m.store p (cs.take off ++ List.replicate n none ++ cs.drop (off + n)))
        else .ub
      else .ub

/-- All elements of a list of cells. -/
def collect : List (Option α) → Outcome (List α)
  | [] => .ok []
  | none :: _ => .ub
  | some x :: cs => do
    let xs ← collect cs
    pure (x :: xs)

/-- `n` elements from `off` on are read. -/
def Mem.read (m : Mem α) (p : Option Nat) (off n : Nat) : Outcome (List α) :=
  if n = 0 then .ok []
  else match m.cells p with
    | none => .ub
    | some cs => if off + n ≤ cs.length then collect ((cs.drop off).take n) else .ub

/-- `CUDAVector` (vector.cuh:556-561). -/
structure Vec where
  data : Option Nat
  cap : Nat
  size : Nat
deriving Repr, DecidableEq

/-- A default constructed vector, also a vector that has been moved from (vector.cuh:203-221). -/
def Vec.empty : Vec := ⟨none, 0, 0⟩

/-- The old block after its elements have moved (vector.cuh:408, 529-532). -/
def Mem.freeOld (m : Mem α) (dev : Bool) (v : Vec) : Outcome (Mem α) :=
  if dev then m.freeIf (v.data ≠ none ∧ v.cap ≠ 0) v.data else m.free v.data

/-- The elements of a `std::vector` (vector.cuh:268-275); `size_` is still 0 when the kernel is started. -/
def Mem.copyBits (e : Elem α) (m : Mem α) (p : Option Nat) (xs : List α) : Outcome (Mem α) :=
  if e.trivial then m.write p 0 xs else .ok m

section
variable (e : Elem α) (m : Mem α)

/-- `reserve` and `dev_reserve` (vector.cuh:380-410, 516-534). -/
def reserve (dev : Bool) (v : Vec) (n : Nat) : Outcome (Mem α × Vec) :=
  if n ≤ v.cap then .ok (m, v)
  else do
    let q := m.alloc (if dev then n * e.bytes else n)
    let xs ← q.1.read v.data 0 v.size
    let m1 ← q.1.fill e dev q.2 0 xs
    let m2 ← m1.destroy e v.data 0 v.size
    let m3 ← m2.freeOld dev v
    pure (m3, ⟨q.2, n, v.size⟩)

/-- `resize` and `dev_resize` (vector.cuh:412-432, 536-554). -/
def resize (dev : Bool) (v : Vec) (n : Nat) : Outcome (Mem α × Vec) :=
  if n = v.size then .ok (m, v)
  else if n > v.size then do
    let r ← reserve e m dev v n
    let m1 ← r.1.write r.2.data v.size (List.replicate (n - v.size) e.default)
    pure (m1, { r.2 with size := n })
  else do
    let m1 ← m.destroy e v.data n (v.size - n)
    pure (m1, { v with size := n })

/-- `CUDAVector(size)` (vector.cuh:125-136). -/
def make (n : Nat) : Outcome (Mem α × Vec) :=
  if n = 0 then .ok (m, .empty)
  else do
    let q := m.alloc n
    let m1 ← q.1.write q.2 0 (List.replicate n e.default)
    pure (m1, ⟨q.2, n, n⟩)

/-- `CUDAVector(std::vector)` and `CUDAVector(std::initializer_list)` (vector.cuh:66-101). -/
def ofList (xs : List α) : Outcome (Mem α × Vec) :=
  if xs = [] then .ok (m, .empty)
  else do
    let q := m.alloc xs.length
    let m1 ← q.1.write q.2 0 xs
    pure (m1, ⟨q.2, xs.length, xs.length⟩)

/-- `CUDAVector(pointer, size)` (vector.cuh:139-158). -/
def ofArray (dev : Bool) (xs : List α) : Outcome (Mem α × Vec) := do
  let r ← reserve e m dev .empty xs.length
  let m1 ← r.1.write r.2.data 0 xs
  pure (m1, { r.2 with size := xs.length })

/-- `clear` (vector.cuh:307-318). -/
def clear (v : Vec) : Outcome (Mem α × Vec) :=
  if v.size = 0 then .ok (m, v)
  else do
    let m1 ← m.destroy e v.data 0 v.size
    pure (m1, { v with size := 0 })

/-- The destructor (vector.cuh:160-176). -/
def destruct (v : Vec) : Outcome (Mem α) :=
  if v.data = none ∨ v.cap = 0 then .ok m
  else do
    let m1 ← m.destroy e v.data 0 v.size
    m1.free v.data

/-- The copy constructor (vector.cuh:179-200). -/
def copy (dev : Bool) (o : Vec) : Outcome (Mem α × Vec) := do
  let q := m.alloc o.cap
  let xs ← q.1.read o.data 0 o.size
  let m1 ← q.1.fill e dev q.2 0 xs
  pure (m1, ⟨q.2, o.cap, o.size⟩)

/-- Copy assignment of another vector (vector.cuh:224-244). -/
def assign (v o : Vec) : Outcome (Mem α × Vec) := do
  let q := m.alloc o.size
  let xs ← q.1.read o.data 0 o.size
  let m1 ← q.1.write q.2 0 xs
  let r ← clear e m1 v
  let m2 ← r.1.freeIf (v.cap ≠ 0) v.data
  pure (m2, ⟨q.2, o.size, o.size⟩)

/-- Move assignment of another vector (vector.cuh:247-260), which becomes empty. -/
def moveAssign (v o : Vec) : Outcome (Mem α × Vec) := do
  let r ← clear e m v
  let m1 ← r.1.free v.data
  pure (m1, o)

/-- Assignment of a `std::vector` (vector.cuh:262-278).  If the type is not trivially copyable the kernel is started for `size_` elements,
which is 0 at that point. -/
def assignList (v : Vec) (xs : List α) : Outcome (Mem α × Vec) := do
  let r ← clear e m v
  let q ← reserve e r.1 false r.2 xs.length
  let m1 ← q.1.copyBits e q.2.data xs
  pure (m1, { q.2 with size := xs.length })

/-- `set` (vector.cuh:320-330); on the host the element is copied bitwise over the old one. -/
def set (dev : Bool) (v : Vec) (k : Nat) (x : α) : Outcome (Mem α × Bool) :=
  if k ≥ v.size then .ok (m, false)
  else do
    let m1 ← m.fill e dev v.data k [x]
    pure (m1, true)

/-- A full vector gets more memory (vector.cuh:364-367). -/
def grow (dev : Bool) (v : Vec) : Outcome (Mem α × Vec) :=
  if v.size = v.cap then reserve e m dev v ((v.size + 1) * 2) else .ok (m, v)

/-- `push_back` (vector.cuh:362-372) of an element outside of the vector. -/
def push (dev : Bool) (v : Vec) (x : α) : Outcome (Mem α × Vec) := do
  let r ← grow e m dev v
  if dev then do
    let m1 ← r.1.write r.2.data r.2.size [x]
    pure (m1, { r.2 with size := r.2.size + 1 })
  else do
    let q ← resize e r.1 false r.2 (r.2.size + 1)
    let w ← set e q.1 false q.2 (q.2.size - 1) x
    pure (w.1, q.2)

/-- `v.push_back(v[k])` on the device: the reference is read after the elements have moved. -/
def pushOwn (v : Vec) (k : Nat) : Outcome (Mem α × Vec) := do
  let r ← grow e m true v
  let xs ← r.1.read v.data k 1
  let m1 ← r.1.write r.2.data r.2.size xs
  pure (m1, { r.2 with size := r.2.size + 1 })

/-- `pop_back` (vector.cuh:374-378). -/
def pop (v : Vec) : Outcome (Vec × α) :=
  if v.size = 0 then .ok (v, e.default)
  else do
    let xs ← m.read v.data (v.size - 1) 1
    pure ({ v with size := v.size - 1 }, xs.headD e.default)

/-- `erase(begin() + a, begin() + b)` (vector.cuh:442-476). -/
def erase (dev : Bool) (v : Vec) (a b : Nat) : Outcome (Mem α × Vec) :=
  if a ≥ v.size then .ok (m, v)
  else if b ≤ a then .ok (m, v)
  else if b ≥ v.size then resize e m dev v (v.size - (min b v.size - a))
  else if dev then do
    let xs ← m.read v.data b (v.size - b)
    let m1 ← m.assign e v.data a xs
    resize e m1 true v (v.size - (v.size - a) + (v.size - b))
  else do
    let q := m.alloc (v.size - b)
    let xs ← q.1.read v.data b (v.size - b)
    let m1 ← q.1.write q.2 0 xs
    let m2 ← m1.destroy e v.data a (v.size - a)
    let ys ← m2.read q.2 0 (v.size - b)
    let m3 ← m2.write v.data a ys
    let r ← resize e m3 false v (v.size - (v.size - a) + (v.size - b))
    let m4 ← r.1.destroy e q.2 0 (v.size - b)
    let m5 ← m4.free q.2
    pure (m5, r.2)

/-- `gpu_extract` of a vector in device memory (vector.cuh:569-580): a bitwise copy and `actualize` (vector.cuh:493-513). -/
def extract (o : Vec) : Outcome (Mem α × Vec) :=
  if o.size = 0 then .ok (m, { o with data := none })
  else do
    let q := m.alloc o.cap
    let xs ← q.1.read o.data 0 o.size
    let m1 ← q.1.write q.2 0 xs
    pure (m1, { o with data := q.2 })

/-- `to_std` (vector.cuh:103-121). -/
def toStd (v : Vec) : Outcome (List α) := m.read v.data 0 v.size

/-- `operator==` (vector.cuh:280-304, equal_kernel in vector_kernels.cuh:107-119): the host starts one thread. -/
def equal [BEq α] (dev : Bool) (v o : Vec) : Outcome Bool :=
  if v.size ≠ o.size then .ok false
  else do
    let n := if dev then v.size else min 1 v.size
    let xs ← m.read v.data 0 n
    let ys ← m.read o.data 0 n
    pure (xs == ys)

end

/-! ## Programs -/

/-- A call on the vectors of a program; vectors are numbered in the order of their creation. -/
inductive Op (α : Type) where
  | make (n : Nat)
  | ofList (xs : List α)
  | ofArray (dev : Bool) (xs : List α)
  | copy (dev : Bool) (i : Nat)
  | moveNew (i : Nat)
  | extract (i : Nat)
  | assign (i j : Nat)
  | moveAssign (i j : Nat)
  | assignList (i : Nat) (xs : List α)
  | clear (i : Nat)
  | set (dev : Bool) (i k : Nat) (x : α)
  | push (dev : Bool) (i : Nat) (x : α)
  | pushOwn (i k : Nat)
  | pop (i : Nat)
  | reserve (dev : Bool) (i n : Nat)
  | resize (dev : Bool) (i n : Nat)
  | erase (dev : Bool) (i a b : Nat)
  | destruct (i : Nat)
  | toStd (i : Nat)
  | copyAt (i k : Nat)
deriving Repr, DecidableEq

/-- What a call returns. -/
inductive Ret (α : Type) where
  | unit
  | flag (b : Bool)
  | elem (x : α)
  | list (xs : List α)
deriving Repr, DecidableEq

/-- The memory and the vectors; `none` is a vector that has been destroyed. -/
structure State (α : Type) where
  mem : Mem α
  vecs : List (Option Vec)
deriving Repr, DecidableEq

/-- Nothing yet. -/
def State.init : State α := ⟨⟨[]⟩, []⟩

/-- A vector of the program; using a destroyed one is undefined. -/
def State.vec (s : State α) (i : Nat) : Outcome Vec :=
  match s.vecs[i]? with
  | some (some v) => .ok v
  | _ => .ub

/-- A new vector. -/
def State.add (s : State α) (r : Mem α × Vec) : State α × Ret α := (⟨r.1, s.vecs ++ [some r.2]⟩, .unit)

/-- A changed vector. -/
def State.put (s : State α) (i : Nat) (r : Mem α × Vec) : State α × Ret α := (⟨r.1, s.vecs.set i (some r.2)⟩, .unit)

/-- One call. -/
def step (e : Elem α) (s : State α) : Op α → Outcome (State α × Ret α)
  | .make n => do pure (s.add (← make e s.mem n))
  | .ofList xs => do pure (s.add (← ofList s.mem xs))
  | .ofArray dev xs => do pure (s.add (← ofArray e s.mem dev xs))
  | .copy dev i => do
    let o ← s.vec i
    pure (s.add (← copy e s.mem dev o))
  | .moveNew i => do
    let o ← s.vec i
    pure (⟨s.mem, s.vecs.set i (some .empty) ++ [some o]⟩, .unit)
  | .extract i => do
    let o ← s.vec i
    pure (s.add (← extract s.mem o))
  | .assign i j => do
    let v ← s.vec i
    let o ← s.vec j
    if i = j then pure (s, .unit) else pure (s.put i (← assign e s.mem v o))
  | .moveAssign i j => do
    let v ← s.vec i
    let o ← s.vec j
    if i = j then pure (s, .unit)
    else do
      let r ← moveAssign e s.mem v o
      pure (⟨r.1, (s.vecs.set j (some .empty)).set i (some r.2)⟩, .unit)
  | .assignList i xs => do
    let v ← s.vec i
    pure (s.put i (← assignList e s.mem v xs))
  | .clear i => do
    let v ← s.vec i
    pure (s.put i (← clear e s.mem v))
  | .set dev i k x => do
    let v ← s.vec i
    let r ← set e s.mem dev v k x
    pure (⟨r.1, s.vecs⟩, .flag r.2)
  | .push dev i x => do
    let v ← s.vec i
    pure (s.put i (← push e s.mem dev v x))
  | .pushOwn i k => do
    let v ← s.vec i
    pure (s.put i (← pushOwn e s.mem v k))
  | .pop i => do
    let v ← s.vec i
    let r ← pop e s.mem v
    pure (⟨s.mem, s.vecs.set i (some r.1)⟩, .elem r.2)
  | .reserve dev i n => do
    let v ← s.vec i
    pure (s.put i (← reserve e s.mem dev v n))
  | .resize dev i n => do
    let v ← s.vec i
    pure (s.put i (← resize e s.mem dev v n))
  | .erase dev i a b => do
    let v ← s.vec i
    pure (s.put i (← erase e s.mem dev v a b))
  | .destruct i => do
    let v ← s.vec i
    let m ← destruct e s.mem v
    pure (⟨m, s.vecs.set i none⟩, .unit)
  | .toStd i => do
    let v ← s.vec i
    let xs ← toStd s.mem v
    pure (s, .list xs)
  | .copyAt i k => do
    let v ← s.vec i
    let xs ← s.mem.read v.data k 1
    pure (s, .elem (xs.headD e.default))

/-- Calls one after another. -/
def run (e : Elem α) : State α → List (Op α) → Outcome (State α × List (Ret α))
  | s, [] => .ok (s, [])
  | s, op :: ops => do
    let r ← step e s op
    let q ← run e r.1 ops
    pure (q.1, r.2 :: q.2)

end Knp.CuVec
