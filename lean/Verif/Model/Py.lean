/-
Python run-time notions shared by the models: exceptions as values and `while True` loops.
-/

namespace Verif

/-- Python exception classes that the modelled code can raise. -/
inductive PyErr where
  | arithmetic      -- ArithmeticError
  | overflow        -- OverflowError
  | zeroDivision    -- ZeroDivisionError
  | value           -- ValueError (also numpy broadcasting errors and math domain errors)
  | index           -- IndexError
  | key             -- KeyError
  | type            -- TypeError
  | attribute       -- AttributeError
  | notImplemented  -- NotImplementedError
  | runtime         -- RuntimeError
  | assertion       -- AssertionError
  | unbound         -- UnboundLocalError
  | stopIteration   -- StopIteration
  deriving DecidableEq, Repr

/-- Outcome of one pass through the body of a `while True` loop: go on with new local variables, or leave the loop
(`return`, `break` or `raise`, which all carry a value of type `β`). -/
inductive Step (σ β : Type _) where
  | next : σ → Step σ β
  | done : β → Step σ β

/-- `while True: body`, run for at most `fuel` passes; `none` means that the loop is still running. -/
def loop {σ β : Type _} (body : σ → Step σ β) : Nat → σ → Option β
  | 0, _ => none
  | fuel + 1, s =>
    match body s with
    | .done b => some b
    | .next s' => loop body fuel s'

/-- The loop started in `s` stops with outcome `b`. -/
def LoopStops {σ β : Type _} (body : σ → Step σ β) (s : σ) (b : β) : Prop :=
  ∃ fuel, loop body fuel s = some b

/-- The loop started in `s` never stops. -/
def LoopDiverges {σ β : Type _} (body : σ → Step σ β) (s : σ) : Prop :=
  ∀ fuel, loop body fuel s = none

end Verif
