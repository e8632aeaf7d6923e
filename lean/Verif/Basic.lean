/-!
# Outcomes of Rust functions

`Res` is the result of a modelled Rust function that may return `Err(..)` or panic.
It does not model any particular line of the code base; it is the shared vocabulary.
-/

namespace Verif

/-- Outcome of a modelled function: `ok a` is a normal return, `err e` is a returned `Err(e)`,
`panic` is an unwinding panic (index out of bounds, failed `expect`, arithmetic underflow).
The error type `e` is a short tag instead of the code's message. -/
inductive Res (ε : Type) (α : Type) where
  | ok (a : α)
  | err (e : ε)
  | panic
deriving DecidableEq, Repr

namespace Res

/-- Sequencing: `err` and `panic` leave the function at once (Rust's `?` and unwinding). -/
protected def bind {ε α β : Type} (r : Res ε α) (f : α → Res ε β) : Res ε β :=
  match r with
  | ok a => f a
  | err e => err e
  | panic => panic

instance {ε : Type} : Monad (Res ε) where
  pure := Res.ok
  bind := Res.bind

@[simp] theorem pure_eq {ε α : Type} (a : α) : (pure a : Res ε α) = ok a := rfl
@[simp] theorem ok_bind {ε α β : Type} (a : α) (f : α → Res ε β) : (ok a >>= f) = f a := rfl
@[simp] theorem err_bind {ε α β : Type} (e : ε) (f : α → Res ε β) :
    ((err e : Res ε α) >>= f) = err e := rfl
@[simp] theorem panic_bind {ε α β : Type} (f : α → Res ε β) :
    ((panic : Res ε α) >>= f) = panic := rfl

theorem bind_eq_ok {ε α β : Type} {r : Res ε α} {f : α → Res ε β} {b : β} :
    (r >>= f) = ok b ↔ ∃ a, r = ok a ∧ f a = ok b := by
  cases r <;> simp

/-- Indexing a vector: panics when out of bounds. -/
def ofIdx {ε α : Type} : Option α → Res ε α
  | some a => ok a
  | none => panic

@[simp] theorem ofIdx_some {ε α : Type} (a : α) : (ofIdx (some a) : Res ε α) = ok a := rfl
@[simp] theorem ofIdx_none {ε α : Type} : (ofIdx (none : Option α) : Res ε α) = panic := rfl
theorem ofIdx_eq_ok {ε α : Type} {o : Option α} {a : α} :
    (ofIdx o : Res ε α) = ok a ↔ o = some a := by cases o <;> simp

end Res
end Verif
