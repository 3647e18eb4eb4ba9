import Verif.Model.Arms
import Verif.Spec.Data

/-!
# Specification vocabulary for arms
-/

namespace Verif

namespace ExpData
variable {β : Type}

/-- All units of a dataset in order. -/
def units (d : ExpData β) : List (Option (List β) × Option β × Option β) :=
  (List.range d.nUnits).map d.unitAt

end ExpData

/-- A call made on a nuisance parameter with data. -/
inductive EtaCall (β : Type)
  | fit (d : ExpData β)
  | score (d : ExpData β)

/-- The nuisance parameter `ops`, recording every dataset it is given. -/
def EtaOps.logged {E β α : Type} (ops : EtaOps E β α) : EtaOps (E × List (EtaCall β)) β α where
  fit := fun e d => ((ops.fit e.1 d).1, (ops.fit e.1 d).2, e.2 ++ [.fit d])
  hasEnough := fun e => ops.hasEnough e.1
  score := fun e d => ((ops.score e.1 d).1, (ops.score e.1 d).2, e.2 ++ [.score d])
  csWidth := fun e => ops.csWidth e.1
  reset := fun e => (ops.reset e.1, e.2)

/-- A sequence of `update` calls on one arm (a call that raises is caught and the next one made);
returns all outcomes and the final state. -/
def runUpdates {σ D α R : Type} (upd : D → Fl α → Py σ R) : List (D × Fl α) → σ → List (Except PyErr R) × σ
  | [], s => ([], s)
  | (d, δ) :: h, s => ((upd d δ s).1 :: (runUpdates upd h (upd d δ s).2).1, (runUpdates upd h (upd d δ s).2).2)

/-- `delta` is a number strictly between 0 and 1. -/
def ValidDelta {α : Type} [Field α] [LinearOrder α] (delta : Fl α) : Prop := ∃ δ : α, delta = .fin δ ∧ 0 < δ ∧ δ < 1

end Verif

namespace Verif
namespace Arm
variable {β α : Type}

/-- The units of the (transformed) batches of a history that an assignment sends to one fold: for batch
`t`, the positions `sel assign[t]`, batch after batch. -/
def assignedUnits (T : ExpData β → ExpData β) (sel : List Nat × List Nat → List Nat)
    (hist : List (ExpData β × Fl α)) (assign : List (List Nat × List Nat)) :
    List (Option (List β) × Option β × Option β) :=
  ((hist.zip assign).map fun p => (sel p.2).map (T p.1.1).unitAt).flatten

/-- Every batch is split into two disjoint parts covering it. -/
def IsAssignment (T : ExpData β → ExpData β) (hist : List (ExpData β × Fl α)) (assign : List (List Nat × List Nat)) : Prop :=
  assign.length = hist.length ∧
  ∀ (t : Nat) h a, hist[t]? = some h → assign[t]? = some a → (a.1 ++ a.2).Perm (List.range (T h.1).nUnits)

/-- A batch history is acceptable: confidence levels valid, the transformer succeeds on every batch with
a well-formed result, all results of the same kind. -/
structure GoodHist [Field α] [LinearOrder α] (transform : ExpData β → Except PyErr (ExpData β)) (T : ExpData β → ExpData β)
    (hist : List (ExpData β × Fl α)) : Prop where
  delta : ∀ p ∈ hist, ValidDelta p.2
  transform : ∀ p ∈ hist, transform p.1 = .ok (T p.1)
  wf : ∀ p ∈ hist, (T p.1).WF
  kind : ∀ p ∈ hist, ∀ q ∈ hist, ExpData.SameKind (T p.1) (T q.1)

/-- A data call that happened in the update number `t`: fit sees the part of the first `t` batches
assigned to fold 0, score the part assigned to fold 1. -/
def CallAt (T : ExpData β → ExpData β) (hist : List (ExpData β × Fl α)) (assign : List (List Nat × List Nat)) :
    EtaCall β → Prop
  | .fit d => ∃ t, 0 < t ∧ t ≤ hist.length ∧ d.units = assignedUnits T Prod.fst (hist.take t) (assign.take t)
  | .score d => ∃ t, 0 < t ∧ t ≤ hist.length ∧ d.units = assignedUnits T Prod.snd (hist.take t) (assign.take t)

/-- An arm that can file the dataset `t`: nothing stored, or stored data are replaced, or the stored folds
are well formed and of the same kind. -/
def Ready {E : Type} (stable : Bool) (s : ArmState E β α) (t : ExpData β) : Prop :=
  s.split = none ∨ stable = false ∨
  ∃ a b : ExpData β, s.split = some [a, b] ∧ a.WF ∧ b.WF ∧ ExpData.SameKind t a ∧ ExpData.SameKind t b

/-- Calling `calculate_score` again on the same data gives the same scores. -/
def ScoreRepeatable {E : Type} (ops : EtaOps E β α) : Prop :=
  ∀ e d, (ops.score (ops.score e d).2 d).1 = (ops.score e d).1

end Arm
end Verif

namespace Verif

/-- `x` is the entry at position `k` (from zero) of the sample arranged in increasing order, NaNs last. -/
def IsOrderStat {α : Type} [LinearOrder α] (l : List (Fl α)) (k : Nat) (x : Fl α) : Prop :=
  ∃ sorted : List (Fl α), sorted.Perm l ∧ sorted.Pairwise (fun a b => b = .nan ∨ a.le b = true) ∧ sorted[k]? = some x

end Verif
