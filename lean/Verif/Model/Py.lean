import Verif.Model.Fl

/-!
# Computations that mutate a state and may raise

`Py σ A` is the meaning of a piece of Python code that reads and writes the state `σ` and returns a value
or raises.  The state reached is kept when an exception is raised (Python has no roll-back).
-/

namespace Verif

/-- State and exceptions; the state survives an exception. -/
def Py (σ A : Type) : Type := σ → Except PyErr A × σ

namespace Py
variable {σ A B : Type}

instance : Monad (Py σ) where
  pure a := fun s => (.ok a, s)
  bind m f := fun s =>
    match m s with
    | (.ok a, s') => f a s'
    | (.error e, s') => (.error e, s')

/-- `raise e`. -/
def raise (e : PyErr) : Py σ A := fun s => (.error e, s)

/-- Read the state. -/
def get : Py σ σ := fun s => (.ok s, s)

/-- Assign. -/
def modify (f : σ → σ) : Py σ Unit := fun s => (.ok (), f s)

/-- A pure expression that may raise. -/
def lift (x : Except PyErr A) : Py σ A := fun s => (x, s)

theorem bind_apply (m : Py σ A) (f : A → Py σ B) (s : σ) :
    (m >>= f) s = match m s with
      | (.ok a, s') => f a s'
      | (.error e, s') => (.error e, s') := rfl

theorem pure_apply (a : A) (s : σ) : (pure a : Py σ A) s = (.ok a, s) := rfl
theorem raise_apply (e : PyErr) (s : σ) : (raise e : Py σ A) s = (.error e, s) := rfl
theorem get_apply (s : σ) : (get : Py σ σ) s = (.ok s, s) := rfl
theorem modify_apply (f : σ → σ) (s : σ) : (modify f) s = (.ok (), f s) := rfl
theorem lift_apply (x : Except PyErr A) (s : σ) : (lift x : Py σ A) s = (x, s) := rfl

end Py
end Verif
