/-!
# Outcomes of C++ code and loops

Common vocabulary of the model.  It does not model a particular file of the
repository; it fixes how C++ control flow is represented.
-/

namespace Pico

/-- Outcome of a piece of C++ code: a value, a process abort through
`LOG_S(FATAL)` (the loguru macro used all over `/repo/src`, it terminates the
process, `/repo/include/msg.hpp:18`) or undefined behaviour. -/
inductive Res (α : Type _) where
  | ok (a : α)
  | fatal
  | ub
  deriving DecidableEq, Repr

namespace Res

/-- Sequencing: the second statement only runs if the first one produced a value. -/
def bind {α β : Type _} (x : Res α) (f : α → Res β) : Res β :=
  match x with
  | ok a => f a
  | fatal => fatal
  | ub => ub

instance : Monad Res where
  pure := Res.ok
  bind := Res.bind

@[simp] theorem ok_bind {α β : Type _} (a : α) (f : α → Res β) :
    (Res.ok a >>= f) = f a := rfl
@[simp] theorem fatal_bind {α β : Type _} (f : α → Res β) :
    ((Res.fatal : Res α) >>= f) = Res.fatal := rfl
@[simp] theorem ub_bind {α β : Type _} (f : α → Res β) :
    ((Res.ub : Res α) >>= f) = Res.ub := rfl
@[simp] theorem pure_eq {α : Type _} (a : α) : (pure a : Res α) = Res.ok a := rfl

end Res

/-- `for (i : l) body` where the body may abort or hit undefined behaviour. -/
def loop {ι σ : Type _} (body : ι → σ → Res σ) : List ι → σ → Res σ
  | [], s => .ok s
  | i :: l, s => body i s >>= loop body l

/-- Index pairs of two nested loops
`for (i = lo₁; i < hi₁; ++i) for (j = lo₂; j < hi₂; ++j)`, in execution order. -/
def idx2 (lo₁ hi₁ lo₂ hi₂ : Nat) : List (Nat × Nat) :=
  (List.range' lo₁ (hi₁ - lo₁)).flatMap fun i =>
    (List.range' lo₂ (hi₂ - lo₂)).map fun j => (i, j)

end Pico
