/-!
# Rust run-time outcomes used by both crates

`Rust α` is the result of a Rust call that may panic.  `Profile` selects what an overflowing
integer addition does (Cargo's `dev` profile panics, `release` wraps).
-/

namespace Verif

/-- Cargo profile: overflow checks on (`dev`) or off (`release`). -/
inductive Profile where
  | dev
  | release
  deriving DecidableEq, Repr

/-- A Rust call either returns a value or panics. -/
inductive Rust (α : Type) where
  | ret (a : α)
  | panic
  deriving DecidableEq, Repr

namespace Rust

/-- Sequencing: a panic aborts the rest of the computation. -/
def bind {α β : Type} : Rust α → (α → Rust β) → Rust β
  | ret a, f => f a
  | panic, _ => panic

/-- The `do` notation for sequences of Rust statements (a `?` or a panic ends the sequence); no code of its own. -/
instance : Monad Rust where
  pure := Rust.ret
  bind := Rust.bind

/-- `Option::unwrap` / `Option::expect`. -/
def unwrap {α : Type} : Option α → Rust α
  | some a => ret a
  | none => panic

@[simp] theorem bind_ret {α β : Type} (a : α) (f : α → Rust β) : (ret a >>= f) = f a := rfl
@[simp] theorem bind_panic {α β : Type} (f : α → Rust β) : ((panic : Rust α) >>= f) = panic := rfl
@[simp] theorem pure_eq {α : Type} (a : α) : (pure a : Rust α) = ret a := rfl
@[simp] theorem unwrap_some {α : Type} (a : α) : unwrap (some a) = ret a := rfl
@[simp] theorem unwrap_none {α : Type} : unwrap (none : Option α) = panic := rfl

end Rust

/-- `a + b` on `usize` (64 bits). -/
def usizeAdd (p : Profile) (a b : Nat) : Rust Nat :=
  if a + b < 2 ^ 64 then .ret (a + b)
  else match p with
    | .dev => .panic
    | .release => .ret ((a + b) % 2 ^ 64)

end Verif
