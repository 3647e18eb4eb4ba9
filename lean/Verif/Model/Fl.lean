import Mathlib.Algebra.Order.Field.Basic

/-!
# Numbers and exceptions

`Fl α` models a Python/NumPy float: NaN, the two infinities, or a finite value of an ordered field `α`.
Finite arithmetic is exact (no rounding, no overflow, no signed zero).
-/

namespace Verif

/-- Python exceptions as values.  `unmodelled` marks inputs that the model deliberately does not cover
(it never stands for behaviour of the code; theorems never conclude it). -/
inductive PyErr
  | valueError | typeError | indexError | attributeError | zeroDivisionError | keyError
  | recursionError | nameError | unmodelled
  deriving DecidableEq, Repr

/-- An idealised float. -/
inductive Fl (α : Type)
  | nan
  | ninf
  | fin (a : α)
  | pinf
  deriving DecidableEq, Repr

namespace Fl

variable {α : Type}

/-- `np.isnan`. -/
def isNan : Fl α → Bool
  | nan => true
  | _ => false

/-- `np.isinf` (true on both infinities). -/
def isInf : Fl α → Bool
  | ninf => true
  | pinf => true
  | _ => false

section Order
variable [LinearOrder α]

/-- IEEE `a < b`: false whenever one side is NaN. -/
def lt : Fl α → Fl α → Bool
  | nan, _ => false
  | _, nan => false
  | ninf, ninf => false
  | ninf, _ => true
  | fin a, fin b => decide (a < b)
  | fin _, pinf => true
  | fin _, ninf => false
  | pinf, _ => false

/-- IEEE `a == b`: false whenever one side is NaN. -/
def eq : Fl α → Fl α → Bool
  | fin a, fin b => decide (a = b)
  | ninf, ninf => true
  | pinf, pinf => true
  | _, _ => false

/-- IEEE `a <= b`. -/
def le (a b : Fl α) : Bool := lt a b || eq a b

/-- One step of Python's built-in `min`: the running value is replaced only by a strictly smaller one. -/
def minStep (acc x : Fl α) : Fl α := if lt x acc then x else acc

/-- One step of Python's built-in `max`. -/
def maxStep (acc x : Fl α) : Fl α := if lt acc x then x else acc

/-- Python's built-in `min` on a list or 1-D array: `ValueError` on the empty sequence, order
dependent in presence of NaN. -/
def pyMin : List (Fl α) → Except PyErr (Fl α)
  | [] => .error .valueError
  | x :: xs => .ok (xs.foldl minStep x)

/-- Python's built-in `max` on a list or 1-D array. -/
def pyMax : List (Fl α) → Except PyErr (Fl α)
  | [] => .error .valueError
  | x :: xs => .ok (xs.foldl maxStep x)

/-- The scan of `np.argmin` over the tail of an array: `i` is the index of the head of the list,
`best`/`bi` the current winner.  A NaN wins against everything except an earlier NaN. -/
def argminAux : List (Fl α) → Nat → Fl α → Nat → Nat
  | [], _, _, bi => bi
  | x :: xs, i, best, bi =>
    if best.isNan then bi
    else if x.isNan || lt x best then argminAux xs (i + 1) x i
    else argminAux xs (i + 1) best bi

/-- `np.argmin` of a non-empty 1-D array (`ValueError` on an empty one). -/
def argmin : List (Fl α) → Except PyErr Nat
  | [] => .error .valueError
  | x :: xs => .ok (argminAux xs 1 x 0)

end Order

section Arith
variable [Field α] [LinearOrder α]

def neg : Fl α → Fl α
  | nan => nan
  | ninf => pinf
  | pinf => ninf
  | fin a => fin (-a)

def add : Fl α → Fl α → Fl α
  | nan, _ => nan
  | _, nan => nan
  | fin a, fin b => fin (a + b)
  | pinf, ninf => nan
  | ninf, pinf => nan
  | pinf, _ => pinf
  | _, pinf => pinf
  | ninf, _ => ninf
  | _, ninf => ninf

def sub (a b : Fl α) : Fl α := add a (neg b)

/-- `infinity * a` for a finite `a` (the infinity positive). -/
def infTimes (a : α) : Fl α := if 0 < a then pinf else if a < 0 then ninf else nan

def mul : Fl α → Fl α → Fl α
  | nan, _ => nan
  | _, nan => nan
  | fin a, fin b => fin (a * b)
  | pinf, fin a => infTimes a
  | fin a, pinf => infTimes a
  | ninf, fin a => neg (infTimes a)
  | fin a, ninf => neg (infTimes a)
  | pinf, pinf => pinf
  | ninf, ninf => pinf
  | pinf, ninf => ninf
  | ninf, pinf => ninf

/-- NumPy division (`x / 0` is an infinity or NaN, not an exception). -/
def div : Fl α → Fl α → Fl α
  | nan, _ => nan
  | _, nan => nan
  | fin a, fin b => if b = 0 then infTimes a else fin (a / b)
  | pinf, fin b => if b < 0 then ninf else pinf
  | ninf, fin b => if b < 0 then pinf else ninf
  | fin _, _ => fin 0
  | _, _ => nan

/-- `x ** 2`. -/
def sq (a : Fl α) : Fl α := mul a a

/-- Sum of a float array. -/
def sum (l : List (Fl α)) : Fl α := l.foldl add (fin 0)

/-- `np.mean`; the mean of an empty array is NaN (`0/0`). -/
def mean (l : List (Fl α)) : Fl α := div (sum l) (fin (l.length : α))

/-- `np.var`: mean of squared deviations from the mean. -/
def var (l : List (Fl α)) : Fl α := mean (l.map fun x => sq (sub x (mean l)))

end Arith

end Fl

end Verif
