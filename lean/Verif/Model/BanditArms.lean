import Verif.Model.Bandits
import Verif.Model.Arms

/-!
# The arms of `arms.py` as seen by the bandits of `bandits.py`
-/

namespace Verif
variable {E β α W : Type} [Field α] [LinearOrder α]

/-- arms.py 139-291: `SampleSplittingArm`; `cost` is the constructor argument (arms.py 68, 77). -/
def ssArmOps (cfg : SSConfig β α) (ops : EtaOps E β α) (lib : Libm α) (rng : Rng W α) (cost : Fl α) :
    ArmOps (ArmState E β α) W β α where
  update := Arm.ssUpdate cfg ops lib rng
  ci := fun s => s.ci                                                                  -- 111-114
  varEst := fun s => s.varEst                                                          -- 116-118
  cost := fun _ => cost
  numUnits := Arm.ssNumUnits                                                           -- 283-287
  reset := Arm.reset ops                                                               -- 289-291

/-- arms.py 294-376: `BootstrapArm`; `get_num_units` is the inherited one (103-105). -/
def bootArmOps [IsStrictOrderedRing α] [FloorRing α] (cfg : BootConfig β) (ops : EtaOps E β α) (rng : Rng W α) (cost : Fl α) :
    ArmOps (ArmState E β α) W β α where
  update := Arm.bootUpdate cfg ops rng
  ci := fun s => s.ci
  varEst := fun s => s.varEst
  cost := fun _ => cost
  numUnits := Arm.baseNumUnits
  reset := Arm.reset ops

/-- A bandit may hold arm objects of different classes, with different attributes: an object is `(j, s)`, where `j` tells its class and
attributes and `s` is its state; `update` and the other methods are those of `o j`. -/
def ArmOps.family {J S : Type} (o : J → ArmOps S W β α) : ArmOps (J × S) W β α where
  update := fun d δ ((j, s), w) => (((o j).update d δ (s, w)).1, (j, ((o j).update d δ (s, w)).2.1), ((o j).update d δ (s, w)).2.2)
  ci := fun x => (o x.1).ci x.2
  varEst := fun x => (o x.1).varEst x.2
  cost := fun x => (o x.1).cost x.2
  numUnits := fun x => (o x.1).numUnits x.2
  reset := fun x => (x.1, (o x.1).reset x.2)

end Verif
