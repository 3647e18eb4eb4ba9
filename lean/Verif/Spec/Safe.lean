import Verif.Model.Bandits

/-!
# Specification vocabulary: arms and data a bandit can rely on
-/

namespace Verif
variable {I S W β α : Type} [Field α] [LinearOrder α]

/-- After an update the arms have estimates, and times the cost they are not NaN. -/
def HasEstimates (ops : ArmOps S W β α) (arms : List I) (Old : I → S → Prop) : Prop :=
  ∀ a ∈ arms, ∀ s, Old a s → ∃ l u v, ops.ci s = (some l, some u) ∧ ops.varEst s = some v ∧
    (ops.cost s).mul l ≠ .nan ∧ (ops.cost s).mul u ≠ .nan ∧ (ops.cost s).mul v ≠ .nan

/-- Arms that never fail on the data of a source.  `New a s` and `Old a s`: the arm object named `a` may be in state `s` before its
first update / after an update; `G d`: the batch `d` may come from the source. -/
structure Reliable (env : BanditEnv W β) (ops : ArmOps S W β α) (cfg : BanditCfg I α) (New Old : I → S → Prop) (G : ExpData β → Prop) : Prop where
  /-- the source never raises -/
  generate : ∀ w, ∃ d w', env.generate cfg.unitsPerRound w = (.ok d, w') ∧ G d
  /-- an update with such a batch never raises -/
  update : ∀ a ∈ cfg.arms, ∀ d s w, G d → New a s ∨ Old a s → ∃ r s' w', ops.update d (Bandit.level cfg) (s, w) = (.ok r, s', w') ∧ Old a s'
  estimates : HasEstimates ops cfg.arms Old

/-- Arms that never fail on batches of the dataset `all`, read in order. -/
structure ReliableOn (all : ExpData β) (ops : ArmOps S W β α) (cfg : BanditCfg I α) (New Old : I → S → Prop) (G : ExpData β → Prop) : Prop where
  /-- a full batch -/
  batch : ∀ i, i + cfg.unitsPerRound ≤ all.nUnits → ∃ d, all.slice i (i + cfg.unitsPerRound) = .ok d ∧ G d
  /-- an update with such a batch never raises, and the arm counts its units -/
  update : ∀ a ∈ cfg.arms, ∀ d s w, G d → New a s ∨ Old a s → ∃ r s' w', ops.update d (Bandit.level cfg) (s, w) = (.ok r, s', w') ∧ Old a s' ∧
    ops.numUnits s' = ops.numUnits s + cfg.unitsPerRound
  estimates : HasEstimates ops cfg.arms Old

/-- All arms have the same cost-adjusted estimate. -/
def AllTie (ops : ArmOps S W β α) (arms : List I) (heap : I → S) : Prop :=
  ∀ a ∈ arms, ∀ b ∈ arms, (ops.varEst (heap a)).map (ops.cost (heap a)).mul = (ops.varEst (heap b)).map (ops.cost (heap b)).mul

/-- Arms whose first batch leaves them all with the same cost-adjusted estimate `v`. -/
structure FirstTie (env : BanditEnv W β) (ops : ArmOps S W β α) (cfg : BanditCfg I α) (New : I → S → Prop) (G : ExpData β → Prop) (v : Fl α) : Prop where
  generate : ∀ w, ∃ d w', env.generate cfg.unitsPerRound w = (.ok d, w') ∧ G d
  first : ∀ a ∈ cfg.arms, ∀ d s w, G d → New a s → ∃ r s' w' l u x, ops.update d (Bandit.level cfg) (s, w) = (.ok r, s', w') ∧
    ops.ci s' = (some l, some u) ∧ ops.varEst s' = some x ∧ (ops.cost s').mul x = v

end Verif
