import Verif.Model.Bandits

/-!
# Specification vocabulary for bandits

What happened in a run is described by a list of *rounds*; a round is the list of `update` calls made in it and the
heap (the states of all arms) at its end.
-/

namespace Verif
variable {I S W β α : Type}

/-- One call `arm.update(data, level)`. -/
structure PullRec (I β α : Type) where
  arm : I
  data : ExpData β
  level : Fl α

/-- A round: the calls made, in order, and the arms afterwards. -/
structure RoundRec (I S β α : Type) where
  pulls : List (PullRec I β α)
  heap : I → S

/-- The arms updated in a round, in order. -/
def RoundRec.arms (r : RoundRec I S β α) : List I := r.pulls.map (·.arm)

/-- The calls `ps`, all successful and made one after the other, lead from the first heap to the second.  Between two
calls only the outside world may change. -/
inductive Pulls [DecidableEq I] (ops : ArmOps S W β α) : List (PullRec I β α) → (I → S) → (I → S) → Prop
  | nil (h : I → S) : Pulls ops [] h h
  | cons {p : PullRec I β α} {ps : List (PullRec I β α)} {h h' : I → S} {w w' : W} {r : Fl α × Fl α} {s' : S} :
      ops.update p.data p.level (h p.arm, w) = (.ok r, s', w') →
      Pulls ops ps (Function.update h p.arm s') h' → Pulls ops (p :: ps) h h'

/-- The rounds `rs` lead from the first heap to the second. -/
inductive Rounds [DecidableEq I] (ops : ArmOps S W β α) (h0 : I → S) : List (RoundRec I S β α) → (I → S) → Prop
  | nil : Rounds ops h0 [] h0
  | snoc {rs : List (RoundRec I S β α)} {h : I → S} {r : RoundRec I S β α} :
      Rounds ops h0 rs h → Pulls ops r.pulls h r.heap → Rounds ops h0 (rs ++ [r]) r.heap

/-- The recorded histories report the rounds `rs`: one entry per round, the entry being cost times the interval bound /
estimate of the arm at the end of that round, and `u` samples in exactly the rounds in which the arm was updated. -/
structure Faithful [DecidableEq I] [Field α] [LinearOrder α] (ops : ArmOps S W β α) (arms : List I) (u : Nat)
    (rs : List (RoundRec I S β α)) (bd : BanditData I α) : Prop where
  lcb : ∀ a ∈ arms, (bd.lcb a).map some = rs.map fun r => (ops.ci (r.heap a)).1.map (ops.cost (r.heap a)).mul
  ucb : ∀ a ∈ arms, (bd.ucb a).map some = rs.map fun r => (ops.ci (r.heap a)).2.map (ops.cost (r.heap a)).mul
  var : ∀ a ∈ arms, (bd.var a).map some = rs.map fun r => (ops.varEst (r.heap a)).map (ops.cost (r.heap a)).mul
  samples : ∀ a ∈ arms, bd.samples a = rs.map fun r => if a ∈ r.arms then u else 0
  cum : bd.cum.length = rs.length

/-- The number of samples taken by all arms up to and including round `t`, according to `samples_by_arm`. -/
def BanditData.sampledUpTo (bd : BanditData I α) (arms : List I) (t : Nat) : Nat :=
  (arms.map fun a => ((bd.samples a).take (t + 1)).sum).sum

/-- The last entries of the histories of one arm. -/
def BanditData.finalLcb (bd : BanditData I α) (a : I) : Option (Fl α) := (bd.lcb a).getLast?
def BanditData.finalUcb (bd : BanditData I α) (a : I) : Option (Fl α) := (bd.ucb a).getLast?
def BanditData.finalVar (bd : BanditData I α) (a : I) : Option (Fl α) := (bd.var a).getLast?

/-- Arm `b` is separated from the other arms by the last recorded entries. -/
structure BanditData.Separated [Field α] [LinearOrder α] (bd : BanditData I α) (arms : List I) (tol : Fl α) (b : I) : Prop where
  member : b ∈ arms
  finite : ∀ a ∈ arms, ∃ u, bd.finalUcb a = some u ∧ u.isInf = false
  apart : ∀ a ∈ arms, a ≠ b → ∃ l u, bd.finalLcb a = some l ∧ bd.finalUcb b = some u ∧ u.lt (l.sub tol) = true
  lowest : ∀ a ∈ arms, ∃ v v', bd.finalVar b = some v ∧ bd.finalVar a = some v' ∧ v.le v' = true

/-- `a` has the smallest last recorded estimate (NaN entries of other arms do not count). -/
def BanditData.Lowest [LinearOrder α] (bd : BanditData I α) (arms : List I) (a : I) : Prop :=
  ∃ v, bd.finalVar a = some v ∧ v ≠ .nan ∧ ∀ b ∈ arms, ∀ v', bd.finalVar b = some v' → v' ≠ .nan → v.le v' = true

/-- A real number below / not above a float (false for NaN). -/
def Fl.Above [LinearOrder α] (x : α) (f : Fl α) : Prop := (Fl.fin x).le f = true
def Fl.Below [LinearOrder α] (f : Fl α) (x : α) : Prop := f.le (.fin x) = true

/-- The arm `ops`, each object of which remembers the `update` calls it received. -/
def ArmOps.logged (ops : ArmOps S W β α) : ArmOps (S × List (ExpData β × Fl α)) W β α where
  update := fun d δ s => ((ops.update d δ (s.1.1, s.2)).1,
    ((ops.update d δ (s.1.1, s.2)).2.1, s.1.2 ++ [(d, δ)]), (ops.update d δ (s.1.1, s.2)).2.2)
  ci := fun s => ops.ci s.1
  varEst := fun s => ops.varEst s.1
  cost := fun s => ops.cost s.1
  numUnits := fun s => ops.numUnits s.1
  reset := fun s => (ops.reset s.1, s.2)

/-- An arm that counts the units it is given: as long as it is fed slices of `all`, a successful update adds the number
of units of the batch to `get_num_units()`.  `Inv` is what the arm keeps true of its own state. -/
def CountsUnits (ops : ArmOps S W β α) (all : ExpData β) (Inv : S → Prop) : Prop :=
  ∀ s w i j d δ r s' w', Inv s → all.slice i j = .ok d → ops.update d δ (s, w) = (.ok r, s', w') →
    Inv s' ∧ ops.numUnits s' = ops.numUnits s + d.nUnits

/-- An arm whose `update` does not depend on the outside world: it acts on its own state as `f`. -/
def Deterministic (ops : ArmOps S W β α) (f : ExpData β → Fl α → S → S) : Prop :=
  ∀ d δ s w, (ops.update d δ (s, w)).2.1 = f d δ s

end Verif
