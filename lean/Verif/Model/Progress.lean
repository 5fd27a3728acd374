import Verif.Model.Text
import Mathlib.Data.Rat.Defs

/-!
Model of progress reporting (`utils.py:21-69`). A decorated function is a generator: pieces of code
that change the state of the program, each ending in a `yield`, the last in a `return`; every piece
may raise an exception instead. Generators that never end are not modelled. Floats are rationals.
-/

namespace DefDAP

/-- What is yielded (`utils.py:48-54`). -/
inductive Report where
  | text (s : Str)
  | num (q : ℚ)
  | other

/-- A generator with program state `σ` and return value `α` (`utils.py:42, 47-48, 60-66`). -/
inductive Gen (σ α : Type) where
  | ret (f : σ → Except Err α × σ)
  | yield (f : σ → Except Err Report × σ) (next : σ → Gen σ α)

/-- What is printed (`utils.py:40, 51, 56, 64`). -/
inductive Printed where
  | starting
  | line (s : Str)
  | percent (q : ℚ)
  | finished
  deriving DecidableEq

/-- The end of the wrapper (`utils.py:60-66`): only a `StopIteration` is caught. -/
def progressEnd {σ α : Type} (r : Except Err α × σ) (final : Bool) (out : List Printed) :
    (Except Err α × σ) × List Printed :=
  match r.1 with
  | .ok v => ((.ok v, r.2), if final then out ++ [.finished] else out)
  | .error e => ((.error e, r.2), out)

/-- The loop of the wrapper (`utils.py:47-58`). -/
def progressLoop {σ α : Type} : Gen σ α → σ → ℚ → Bool → List Printed →
    (Except Err α × σ) × List Printed
  | .ret f, s, _, final, out => progressEnd (f s) final out
  | .yield f next, s, prev, final, out =>
    match (f s).1 with
    | .error e => ((.error e, (f s).2), out)
    | .ok (.text t) => progressLoop (next (f s).2) (f s).2 prev false (out ++ [.line t])
    | .ok (.num q) =>
      if q - prev > 1 / 100 then
        progressLoop (next (f s).2) (f s).2 q true (out ++ [.percent q])
      else progressLoop (next (f s).2) (f s).2 prev final out
    | .ok .other => ((.error .typeError, (f s).2), out)

/-- `report_progress` (`utils.py:36-68`). -/
def reportProgress {σ α : Type} (g : Gen σ α) (s : σ) : (Except Err α × σ) × List Printed :=
  progressLoop g s 0 true [.starting]

end DefDAP
