import Verif.Spec.Bandits

/-!
# Specification vocabulary: arms whose values settle
-/

namespace Verif
variable {I S W β α : Type}

/-- `K` counts the updates of an arm object. -/
def Counts (ops : ArmOps S W β α) (K : S → Nat) : Prop :=
  ∀ d δ s w r s' w', ops.update d δ (s, w) = (.ok r, s', w') → K s' = K s + 1

/-- `cost * ci` and `cost * var_est` of an arm object are finite and within `e` of `x`. -/
def Settled [Field α] [LinearOrder α] (ops : ArmOps S W β α) (s : S) (x e : α) : Prop :=
  ∃ l u v : α, (ops.ci s).1.map (ops.cost s).mul = some (.fin l) ∧ (ops.ci s).2.map (ops.cost s).mul = some (.fin u) ∧
    (ops.varEst s).map (ops.cost s).mul = some (.fin v) ∧ |l - x| ≤ e ∧ |u - x| ≤ e ∧ |v - x| ≤ e

/-- During the run (`run n` are its first `n` rounds) the values of arm `a` come arbitrarily close to `x`, if it is updated often enough. -/
def Settles [Field α] [LinearOrder α] (ops : ArmOps S W β α) (K : S → Nat) {R : Type} (run : Nat → Py ((I → S) × W) (Option R))
    (start : (I → S) × W) (a : I) (x : α) : Prop :=
  ∀ e : α, 0 < e → ∃ M : Nat, ∀ n s', run n start = (.ok none, s') → M ≤ K (s'.1 a) → Settled ops (s'.1 a) x e

/-- The run raises no exception. -/
def NeverRaises {σ R : Type} (run : Nat → Py σ (Option R)) (start : σ) : Prop := ∀ n e s', run n start ≠ (.error e, s')

/-- The run comes to an end: it returns after finitely many rounds. -/
def Ends {σ R : Type} (run : Nat → Py σ (Option R)) (start : σ) : Prop := ∃ n r s', run n start = (.ok (some r), s')

/-- All arms have finite values, and no two of them share a lower bound, an upper bound or an estimate. -/
def GenericValues [Field α] [LinearOrder α] (ops : ArmOps S W β α) (arms : List I) (heap : I → S) : Prop :=
  ∃ l u v : I → α, (∀ a ∈ arms, (ops.ci (heap a)).1.map (ops.cost (heap a)).mul = some (.fin (l a)) ∧
      (ops.ci (heap a)).2.map (ops.cost (heap a)).mul = some (.fin (u a)) ∧
      (ops.varEst (heap a)).map (ops.cost (heap a)).mul = some (.fin (v a))) ∧
    ∀ a ∈ arms, ∀ b ∈ arms, a ≠ b → l a ≠ l b ∧ u a ≠ u b ∧ v a ≠ v b

/-- The states arm `a` goes through during the run. -/
def StateOf {R : Type} (run : Nat → Py ((I → S) × W) (Option R)) (start : (I → S) × W) (a : I) (s : S) : Prop :=
  ∃ n s', run n start = (.ok none, s') ∧ s'.1 a = s

end Verif
