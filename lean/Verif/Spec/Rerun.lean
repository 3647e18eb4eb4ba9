import Verif.Spec.Parameters
import Verif.Model.PaperBandits

/-!
# Specification vocabulary for repeated use of arms and bandits
-/

namespace Verif

/-- Something a user does with bandits that share arm objects: run one of the three algorithms (on any data source, for any
number of rounds), or call `reset()` of one. -/
inductive BanditCall (I W β α : Type)
  | uniform (env : BanditEnv W β) (cfg : BanditCfg I α) (all : Option (ExpData β)) (fuel : Nat)
  | lucb (env : BanditEnv W β) (cfg : BanditCfg I α) (all : Option (ExpData β)) (fuel : Nat)
  | se (env : BanditEnv W β) (cfg : BanditCfg I α) (all : Option (ExpData β)) (fuel : Nat)
  | reset (cfg : BanditCfg I α)

/-- The arms and the world after a sequence of calls; exceptions are caught by the user. -/
def BanditCall.exec {I S W β α : Type} [DecidableEq I] [Field α] [LinearOrder α] (ops : ArmOps S W β α) :
    List (BanditCall I W β α) → (I → S) × W → (I → S) × W
  | [], s => s
  | .uniform env cfg all fuel :: l, s => exec ops l (Bandit.uniformRun env ops cfg all fuel s).2
  | .lucb env cfg all fuel :: l, s => exec ops l (Bandit.lucbRun env ops cfg all fuel s).2
  | .se env cfg all fuel :: l, s => exec ops l (Bandit.seRun env ops cfg all fuel s).2
  | .reset cfg :: l, s => exec ops l (Bandit.reset ops cfg s.1, s.2)

/-- A nuisance parameter whose `reset` forgets everything `fit` and `calculate_score` did. -/
structure EtaOps.ResetLaws {E β α : Type} (ops : EtaOps E β α) : Prop where
  fit : ∀ e d, ops.reset (ops.fit e d).2 = ops.reset e
  score : ∀ e d, ops.reset (ops.score e d).2 = ops.reset e
  reset : ∀ e, ops.reset (ops.reset e) = ops.reset e

end Verif
