/-!
# Common vocabulary of the model

`Outcome` separates the three ways a C++ call can end: it returns, it throws, or the language
gives no meaning to it (undefined behaviour).  Nothing in `/repo` corresponds to this file; it is
the model's vocabulary.
-/

namespace Knp

/-- Result of a modelled C++ call. -/
inductive Outcome (α : Type) where
  /-- normal return -/
  | ok (a : α)
  /-- a C++ exception leaves the call -/
  | throw (what : String)
  /-- undefined behaviour -/
  | ub
deriving Repr, DecidableEq

namespace Outcome

/-- Sequencing: an exception or undefined behaviour in the first part ends the whole. -/
def bind {α β : Type} (x : Outcome α) (f : α → Outcome β) : Outcome β :=
  match x with
  | ok a => f a
  | throw w => throw w
  | ub => ub

instance : Monad Outcome where
  pure := ok
  bind := bind

instance : LawfulMonad Outcome := LawfulMonad.mk'
  (id_map := by intro α x; cases x <;> rfl)
  (pure_bind := by intros; rfl)
  (bind_assoc := by intro α β γ x f g; cases x <;> rfl)

/-- The call returned. -/
def isOk {α : Type} : Outcome α → Bool
  | ok _ => true
  | _ => false

/-- The call threw. -/
def isThrow {α : Type} : Outcome α → Bool
  | throw _ => true
  | _ => false

@[simp] theorem bind_ok {α β : Type} (a : α) (f : α → Outcome β) :
    (Outcome.ok a >>= f) = f a := rfl
@[simp] theorem bind_throw {α β : Type} (w : String) (f : α → Outcome β) :
    ((Outcome.throw w : Outcome α) >>= f) = Outcome.throw w := rfl
@[simp] theorem bind_ub {α β : Type} (f : α → Outcome β) :
    ((Outcome.ub : Outcome α) >>= f) = Outcome.ub := rfl
@[simp] theorem pure_eq {α : Type} (a : α) : (pure a : Outcome α) = Outcome.ok a := rfl

end Outcome

/-- Number of values of a 64-bit unsigned integer (`size_t`, `uint64_t`, `core::Step`). -/
def two64 : Nat := 18446744073709551616

/-- 64-bit unsigned subtraction `a - b` with wrap-around. -/
def subU64 (a b : Nat) : Nat := (a + two64 - b % two64) % two64

/-- 64-bit unsigned addition with wrap-around. -/
def addU64 (a b : Nat) : Nat := (a + b) % two64

theorem subU64_of_le {a b : Nat} (h : b ≤ a) (ha : a < two64) : subU64 a b = a - b := by
  unfold subU64
  have hb : b % two64 = b := Nat.mod_eq_of_lt (by omega)
  rw [hb]
  have h1 : a + two64 - b = (a - b) + two64 := by omega
  rw [h1, Nat.add_mod_right, Nat.mod_eq_of_lt (by omega)]

theorem subU64_of_gt {a b : Nat} (h : a < b) (hb : b < two64) : subU64 a b = a + two64 - b := by
  unfold subU64
  rw [Nat.mod_eq_of_lt hb, Nat.mod_eq_of_lt (by omega)]

theorem addU64_of_lt {a b : Nat} (h : a + b < two64) : addU64 a b = a + b :=
  Nat.mod_eq_of_lt h

/-- Insert into a list sorted by `le`, before the first element it is `le`-below. -/
def insertBy {α : Type} (le : α → α → Bool) (a : α) : List α → List α
  | [] => [a]
  | b :: l => if le a b then a :: b :: l else b :: insertBy le a l

/-- A model of `std::sort` (stable; the order `std::sort` gives to equivalent elements is
unspecified, theorems do not rely on it). -/
def sortBy {α : Type} (le : α → α → Bool) : List α → List α
  | [] => []
  | a :: l => insertBy le a (sortBy le l)

theorem insertBy_perm {α : Type} (le : α → α → Bool) (a : α) (l : List α) :
    (insertBy le a l).Perm (a :: l) := by
  induction l with
  | nil => exact List.Perm.refl _
  | cons b l ih =>
    unfold insertBy
    split
    · exact List.Perm.refl _
    · exact (List.Perm.cons b ih).trans (List.Perm.swap a b l)

theorem sortBy_perm {α : Type} (le : α → α → Bool) (l : List α) : (sortBy le l).Perm l := by
  induction l with
  | nil => exact List.Perm.refl _
  | cons a l ih => exact (insertBy_perm le a _).trans (List.Perm.cons a ih)

theorem insertBy_sorted {α : Type} (le : α → α → Bool)
    (htot : ∀ a b, le a b = true ∨ le b a = true)
    (htr : ∀ a b c, le a b = true → le b c = true → le a c = true) (a : α) (l : List α)
    (h : l.Pairwise (fun x y => le x y = true)) :
    (insertBy le a l).Pairwise (fun x y => le x y = true) := by
  induction l with
  | nil => simp [insertBy]
  | cons b l ih =>
    have hb := List.pairwise_cons.1 h
    unfold insertBy
    split
    · rename_i hab
      refine List.pairwise_cons.2 ⟨?_, h⟩
      intro c hc
      rcases List.mem_cons.1 hc with rfl | hc
      · exact hab
      · exact htr _ _ _ hab (hb.1 c hc)
    · rename_i hab
      refine List.pairwise_cons.2 ⟨?_, ih hb.2⟩
      intro c hc
      rcases List.mem_cons.1 ((insertBy_perm le a l).mem_iff.1 hc) with rfl | hc
      · rcases htot c b with h1 | h1
        · exact absurd h1 hab
        · exact h1
      · exact hb.1 c hc

theorem sortBy_sorted {α : Type} (le : α → α → Bool)
    (htot : ∀ a b, le a b = true ∨ le b a = true)
    (htr : ∀ a b c, le a b = true → le b c = true → le a c = true) (l : List α) :
    (sortBy le l).Pairwise (fun x y => le x y = true) := by
  induction l with
  | nil => simp [sortBy]
  | cons a l ih => exact insertBy_sorted le htot htr a _ ih

theorem sortBy_of_sorted {α : Type} (le : α → α → Bool) (l : List α)
    (h : l.Pairwise (fun x y => le x y = true)) : sortBy le l = l := by
  induction l with
  | nil => rfl
  | cons a l ih =>
    have hb := List.pairwise_cons.1 h
    rw [sortBy, ih hb.2]
    cases l with
    | nil => rfl
    | cons b l => simp [insertBy, hb.1 b (by simp)]

end Knp
