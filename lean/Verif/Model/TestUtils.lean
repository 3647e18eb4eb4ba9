import Verif.Model.Bandits
import Verif.Model.Tabular

/-!
# Model of `run_single_arm` (`causal_effect_bandits/test_utils.py` 27-84)

The arm is any object with the interface `ArmOps` and an attribute `ate`; `increment` is a natural number and
`max_samples` an integer.  The `while` loop takes a fuel.
-/

namespace Verif
namespace TestUtils

/-- The entries of the returned lists. -/
inductive Entry (α : Type)
  | num (x : Option (Fl α))
  | int (n : Int)
  deriving DecidableEq

/-- The local variables of `run_single_arm` (test_utils.py 57-64). -/
structure Locals (α : Type) where
  lcbs : List (Entry α)
  ucbs : List (Entry α)
  vars : List (Entry α)
  ates : List (Entry α)
  ns : List (Entry α)
  cur : Int

variable {S W β α : Type}

/-- `data_gen.generate(n)`, leaving the arm alone. -/
def generateData (generate : Nat → Py W (ExpData β)) (n : Nat) : Py (S × W) (ExpData β) := fun (s, w) =>
  match generate n w with
  | (r, w') => (r, (s, w'))

/-- test_utils.py 66-74: the body of the loop. -/
def runStep (ops : ArmOps S W β α) (ate : S → Option (Fl α)) (generate : Nat → Py W (ExpData β)) (increment : Nat) (delta : Fl α)
    (l : Locals α) : Py (S × W) (Locals α) := do
  let cur := l.cur + increment                                                          -- 66
  let ns := l.ns ++ [.int cur]                                                          -- 67
  let d ← generateData generate increment                                               -- 68
  let _ ← ops.update d delta                                                            -- 70
  let (s, _) ← Py.get
  return { lcbs := l.lcbs ++ [.num (ops.ci s).1]                                        -- 71
           ucbs := l.ucbs ++ [.num (ops.ci s).2]                                        -- 72
           vars := l.vars ++ [.num (ops.varEst s)]                                      -- 73
           ates := l.ates ++ [.num (ate s)]                                             -- 74
           ns := ns, cur := cur }

/-- test_utils.py 65-74: the loop; `none` if it is still running after `fuel` iterations. -/
def runLoop (ops : ArmOps S W β α) (ate : S → Option (Fl α)) (generate : Nat → Py W (ExpData β)) (maxSamples : Int) (increment : Nat)
    (delta : Fl α) : Nat → Locals α → Py (S × W) (Option (Locals α))
  | 0, l => if l.cur < maxSamples then pure none else pure (some l)
  | fuel + 1, l =>
    if l.cur < maxSamples then do
      let l' ← runStep ops ate generate increment delta l
      runLoop ops ate generate maxSamples increment delta fuel l'
    else pure (some l)

/-- test_utils.py 27-84 `run_single_arm`; the returned dict. -/
def runSingleArm (ops : ArmOps S W β α) (ate : S → Option (Fl α)) (generate : Nat → Py W (ExpData β)) (maxSamples : Int) (increment : Nat)
    (delta : Fl α) (fuel : Nat) : Py (S × W) (Option (Dict String (List (Entry α)))) := do
  let r ← runLoop ops ate generate maxSamples increment delta fuel ⟨[], [], [], [], [], 0⟩
  return r.map fun l =>
    [("LCBs", l.lcbs), ("UCBs", l.ucbs), ("var_estimates", l.vars), ("ATE_estmitates", l.ates), ("n_samples", l.ns)]  -- 78-84

end TestUtils
end Verif
