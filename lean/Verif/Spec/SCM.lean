import Verif.Model.SCM
import Verif.Spec.Data

/-!
# Specification vocabulary for structural causal models
-/

namespace Verif
namespace SCM
variable {V β W : Type} [DecidableEq V]

/-- Every variable comes after all its declared parents. -/
def Ordered (scm : SCM V β W) : Prop :=
  ∀ (j : Nat) v ps, scm.varNames[j]? = some v → scm.parents.get? v = some ps → ∀ p ∈ ps, p ∈ scm.varNames.take j

/-- `s` assigns a sample to every variable and `ws` are successive world states such that the `j`-th
variable was drawn from its CPD, given exactly the samples of its declared parents in declared order, in
world `ws[j]`, leaving world `ws[j+1]`. -/
structure IsRun (scm : SCM V β W) (n : Nat) (s : V → Arr β) (ws : List W) : Prop where
  steps : ws.length = scm.varNames.length + 1
  draw : ∀ (j : Nat) v, scm.varNames[j]? = some v → ∃ ps cpd w w',
    scm.parents.get? v = some ps ∧ scm.cpds.get? v = some cpd ∧ ws[j]? = some w ∧ ws[j + 1]? = some w' ∧
    (∀ p ∈ ps, p ∈ scm.varNames.take j) ∧ cpd n (ps.map s) w = (.ok (s v), w')

/-- The dictionaries have entries for all variables, and the designated variables exist. -/
structure Valid (varNames : List V) (parents : Dict V (List V)) (cpds : Dict V (CPD β W)) (cov : List V)
    (treatment response : V) : Prop where
  parents : ∀ v ∈ varNames, parents.get? v ≠ none
  cpds : ∀ v ∈ varNames, cpds.get? v ≠ none
  treatment : treatment ∈ varNames
  response : response ∈ varNames
  cov : ∀ v ∈ cov, v ∈ varNames

/-- The CPDs never raise and always return one row per unit. -/
def TotalCpds (scm : SCM V β W) (n : Nat) : Prop :=
  ∀ v cpd, scm.cpds.get? v = some cpd → ∀ pa w, ∃ a w', cpd n pa w = (.ok a, w') ∧ a.len = n ∧ a.WF

end SCM
end Verif
