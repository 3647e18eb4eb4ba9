import Verif.Model.TestUtils
import Verif.Spec.TestUtils
import Mathlib.Tactic.FieldSimp
import Mathlib.Tactic.Linarith
import Mathlib.Tactic.NormNum

/-!
# C66 the bookkeeping of `run_single_arm`
-/

set_option linter.unusedSectionVars false
set_option linter.unusedSimpArgs false

namespace Verif
namespace TestUtils
variable {S W β α : Type}

theorem lt_roundsNeeded (m : Int) (inc : Nat) (h : 1 ≤ inc) (k : Nat) : k < roundsNeeded m inc ↔ (k : Int) * inc < m := by
  unfold roundsNeeded
  have hpos : (0 : ℚ) < inc := by exact_mod_cast h
  rw [Int.lt_toNat, Int.lt_ceil, lt_div_iff₀ hpos]
  exact_mod_cast Iff.rfl

theorem runStep_inv (ops : ArmOps S W β α) (ate : S → Option (Fl α)) (generate : Nat → Py W (ExpData β)) (inc : Nat) (delta : Fl α)
    (l l' : Locals α) (a b : S × W) :
    runStep ops ate generate inc delta l a = (.ok l', b) ↔ Round ops generate inc delta a b ∧
      l' = ⟨l.lcbs ++ [.num (ops.ci b.1).1], l.ucbs ++ [.num (ops.ci b.1).2], l.vars ++ [.num (ops.varEst b.1)],
        l.ates ++ [.num (ate b.1)], l.ns ++ [.int (l.cur + inc)], l.cur + inc⟩ := by
  obtain ⟨s, w⟩ := a
  unfold runStep Round
  simp only [Py.bind_apply, generateData]
  generalize generate inc w = r
  obtain ⟨_ | d, w'⟩ := r
  · simp
  · simp only
    generalize hu : ops.update d delta (s, w') = r
    obtain ⟨_ | ci, b'⟩ := r
    · simp only [Prod.mk.injEq, reduceCtorEq, false_and, Except.ok.injEq, exists_and_left, false_iff, not_and, not_exists,
        forall_exists_index, and_imp]
      rintro d' w'' rfl rfl ci h
      rw [hu] at h; simp at h
    · simp only [Py.get_apply, Py.pure_apply, Prod.mk.injEq, Except.ok.injEq]
      constructor
      · rintro ⟨rfl, rfl⟩
        exact ⟨⟨d, w', ci, ⟨rfl, rfl⟩, by rw [hu]⟩, rfl⟩
      · rintro ⟨⟨d', w'', ci', ⟨rfl, rfl⟩, h⟩, rfl⟩
        rw [hu] at h
        simp only [Prod.mk.injEq, Except.ok.injEq] at h
        obtain ⟨-, rfl⟩ := h
        exact ⟨rfl, rfl⟩

/-- The local variables after rounds ending in the given states. -/
def after (ops : ArmOps S W β α) (ate : S → Option (Fl α)) (inc : Nat) (l : Locals α) (sts : List (S × W)) : Locals α where
  lcbs := l.lcbs ++ sts.map fun x => .num (ops.ci x.1).1
  ucbs := l.ucbs ++ sts.map fun x => .num (ops.ci x.1).2
  vars := l.vars ++ sts.map fun x => .num (ops.varEst x.1)
  ates := l.ates ++ sts.map fun x => .num (ate x.1)
  ns := l.ns ++ (List.range sts.length).map fun k : Nat => .int (l.cur + (k + 1) * inc)
  cur := l.cur + sts.length * inc

theorem after_cons (ops : ArmOps S W β α) (ate : S → Option (Fl α)) (inc : Nat) (l : Locals α) (b : S × W) (sts : List (S × W)) :
    after ops ate inc ⟨l.lcbs ++ [.num (ops.ci b.1).1], l.ucbs ++ [.num (ops.ci b.1).2], l.vars ++ [.num (ops.varEst b.1)],
      l.ates ++ [.num (ate b.1)], l.ns ++ [.int (l.cur + inc)], l.cur + inc⟩ sts = after ops ate inc l (b :: sts) := by
  unfold after
  congr 1
  · simp
  · simp
  · simp
  · simp
  · simp only [List.append_assoc, List.length_cons, List.range_succ_eq_map, List.map_cons, List.map_map, List.singleton_append]
    congr 2
    · simp
    · refine List.map_congr_left fun k _ => ?_
      simp only [Function.comp, Entry.int.injEq]
      push_cast
      ring
  · simp only [List.length_cons]; push_cast; ring

theorem runLoop_iff (ops : ArmOps S W β α) (ate : S → Option (Fl α)) (generate : Nat → Py W (ExpData β)) (m : Int) (inc : Nat)
    (h1 : 1 ≤ inc) (delta : Fl α) (fuel k : Nat) (l : Locals α) (hl : l.cur = k * inc) (hk : k ≤ roundsNeeded m inc)
    (hf : roundsNeeded m inc ≤ k + fuel) (a b : S × W) (l' : Option (Locals α)) :
    runLoop ops ate generate m inc delta fuel l a = (.ok l', b) ↔
      ∃ sts, sts.length = roundsNeeded m inc - k ∧ Rounds ops generate inc delta a sts ∧ b = sts.getLastD a ∧
        l' = some (after ops ate inc l sts) := by
  induction fuel generalizing k l a with
  | zero =>
    obtain rfl : k = roundsNeeded m inc := by omega
    have hnlt : ¬ l.cur < m := by
      rw [hl, ← lt_roundsNeeded m inc h1]; omega
    rw [runLoop, if_neg hnlt]
    simp only [Py.pure_apply, Prod.mk.injEq, Except.ok.injEq, Nat.sub_self, List.length_eq_zero_iff]
    constructor
    · rintro ⟨rfl, rfl⟩
      exact ⟨[], rfl, trivial, rfl, by simp [after]⟩
    · rintro ⟨sts, rfl, -, rfl, rfl⟩
      exact ⟨by simp [after], rfl⟩
  | succ fuel ih =>
    rw [runLoop]
    by_cases hlt : l.cur < m
    · rw [if_pos hlt]
      have hk' : k < roundsNeeded m inc := by rw [lt_roundsNeeded m inc h1, ← hl]; exact hlt
      rw [Py.bind_apply]
      constructor
      · intro h
        generalize hs : runStep ops ate generate inc delta l a = r at h
        obtain ⟨_ | l1, c⟩ := r
        · simp at h
        · simp only at h
          obtain ⟨hr, rfl⟩ := (runStep_inv ops ate generate inc delta l l1 a c).mp hs
          obtain ⟨sts, e1, e2, e3, e4⟩ := (ih (k + 1) _ (by simp only [hl]; push_cast; ring) (by omega) (by omega) c).mp h
          refine ⟨c :: sts, by simp [e1]; omega, ⟨hr, e2⟩, ?_, ?_⟩
          · rw [e3, List.getLastD_cons]
          · rw [e4, after_cons]
      · rintro ⟨sts, e1, e2, e3, e4⟩
        cases sts with
        | nil => simp at e1; omega
        | cons c sts =>
          obtain ⟨hr, e2⟩ := e2
          have hs := (runStep_inv ops ate generate inc delta l _ a c).mpr ⟨hr, rfl⟩
          rw [hs]
          simp only
          refine (ih (k + 1) _ (by simp only [hl]; push_cast; ring) (by omega) (by omega) c).mpr ⟨sts, ?_, e2, ?_, ?_⟩
          · simp at e1; omega
          · rw [e3, List.getLastD_cons]
          · rw [e4, after_cons]
    · rw [if_neg hlt]
      have hk' : k = roundsNeeded m inc := by
        rw [hl, ← lt_roundsNeeded m inc h1] at hlt; omega
      subst hk'
      simp only [Py.pure_apply, Prod.mk.injEq, Except.ok.injEq, Nat.sub_self, List.length_eq_zero_iff]
      constructor
      · rintro ⟨rfl, rfl⟩
        exact ⟨[], rfl, trivial, rfl, by simp [after]⟩
      · rintro ⟨sts, rfl, -, rfl, rfl⟩
        exact ⟨by simp [after], rfl⟩

/-- **C66** For every arm, generator, limit and increment of at least one: the call ends within
`ceil(max_samples / increment)` rounds (it never runs on), it returns normally exactly when that many rounds in a row do
not raise, and then its lists are, entry by entry, the bounds, variance and effect of the arm after each round and the
multiples of the increment. -/
theorem C66_bookkeeping (ops : ArmOps S W β α) (ate : S → Option (Fl α)) (generate : Nat → Py W (ExpData β)) (m : Int) (inc : Nat)
    (h1 : 1 ≤ inc) (delta : Fl α) (fuel : Nat) (hf : roundsNeeded m inc ≤ fuel) (a b : S × W)
    (out : Option (Dict String (List (Entry α)))) :
    runSingleArm ops ate generate m inc delta fuel a = (.ok out, b) ↔
      ∃ sts d, sts.length = roundsNeeded m inc ∧ Rounds ops generate inc delta a sts ∧ b = sts.getLastD a ∧ out = some d ∧
        d.map Prod.fst = ["LCBs", "UCBs", "var_estimates", "ATE_estmitates", "n_samples"] ∧
        d.get? "LCBs" = some (sts.map fun x => .num (ops.ci x.1).1) ∧
        d.get? "UCBs" = some (sts.map fun x => .num (ops.ci x.1).2) ∧
        d.get? "var_estimates" = some (sts.map fun x => .num (ops.varEst x.1)) ∧
        d.get? "ATE_estmitates" = some (sts.map fun x => .num (ate x.1)) ∧
        d.get? "n_samples" = some ((List.range sts.length).map fun k : Nat => .int ((k + 1) * inc)) := by
  have hloop := fun l' => runLoop_iff ops ate generate m inc h1 delta fuel 0 ⟨[], [], [], [], [], 0⟩ (by simp) (by omega) (by omega) a b l'
  unfold runSingleArm
  rw [Py.bind_apply]
  generalize runLoop ops ate generate m inc delta fuel ⟨[], [], [], [], [], 0⟩ a = r at *
  obtain ⟨_ | l, c⟩ := r
  · simp only [Prod.mk.injEq, reduceCtorEq, false_and, false_iff, not_exists, not_and]
    simp only [Prod.mk.injEq, reduceCtorEq, false_and, false_iff, not_exists, not_and, Nat.sub_zero] at hloop
    intro sts d e1 e2 e3 _
    exact absurd rfl (hloop _ sts e1 e2 e3)
  · simp only [Py.pure_apply, Prod.mk.injEq, Except.ok.injEq, Nat.sub_zero] at hloop ⊢
    constructor
    · rintro ⟨rfl, rfl⟩
      obtain ⟨sts, e1, e2, e3, rfl⟩ := (hloop l).mp ⟨rfl, rfl⟩
      refine ⟨sts, _, e1, e2, e3, rfl, ?_⟩
      simp [after, Dict.get?]
    · rintro ⟨sts, d, e1, e2, e3, rfl, hkeys, h2, h3, h4, h5, h6⟩
      obtain ⟨rfl, rfl⟩ := (hloop _).mpr ⟨sts, e1, e2, e3, rfl⟩
      refine ⟨?_, rfl⟩
      simp only [Option.map_some, Option.some.injEq]
      obtain ⟨⟨k1, v1⟩, ⟨k2, v2⟩, ⟨k3, v3⟩, ⟨k4, v4⟩, ⟨k5, v5⟩, rfl⟩ : ∃ a b c d' e, d = [a, b, c, d', e] := by
        have hlen := congrArg List.length hkeys
        simp only [List.length_map, List.length_cons, List.length_nil] at hlen
        match d, hlen with
        | [a, b, c, d', e], _ => exact ⟨a, b, c, d', e, rfl⟩
      simp only [List.map_cons, List.map_nil, List.cons.injEq, and_true] at hkeys
      obtain ⟨rfl, rfl, rfl, rfl, rfl⟩ := hkeys
      simp [Dict.get?] at h2 h3 h4 h5 h6
      simp [after, h2, h3, h4, h5, h6]

/-- **C66** If generating and updating never raise, the call returns. -/
theorem C66_total (ops : ArmOps S W β α) (ate : S → Option (Fl α)) (generate : Nat → Py W (ExpData β)) (m : Int) (inc : Nat)
    (h1 : 1 ≤ inc) (delta : Fl α) (hg : ∀ w, ∃ d w', generate inc w = (.ok d, w'))
    (hu : ∀ d a, ∃ ci b, ops.update d delta a = (.ok ci, b)) (a : S × W) :
    ∃ out b, runSingleArm ops ate generate m inc delta (roundsNeeded m inc) a = (.ok (some out), b) := by
  have hr : ∀ k a, ∃ sts : List (S × W), sts.length = k ∧ Rounds ops generate inc delta a sts := by
    intro k
    induction k with
    | zero => exact fun a => ⟨[], rfl, trivial⟩
    | succ k ih =>
      intro a
      obtain ⟨d, w', h2⟩ := hg a.2
      obtain ⟨ci, b, h3⟩ := hu d (a.1, w')
      obtain ⟨sts, h4, h5⟩ := ih b
      exact ⟨b :: sts, by simp [h4], ⟨d, w', ci, h2, h3⟩, h5⟩
  obtain ⟨sts, h2, h3⟩ := hr (roundsNeeded m inc) a
  have hloop := (runLoop_iff ops ate generate m inc h1 delta (roundsNeeded m inc) 0 ⟨[], [], [], [], [], 0⟩ (by simp) (by omega) (by omega) a
    _ _).mpr ⟨sts, by simpa using h2, h3, rfl, rfl⟩
  unfold runSingleArm
  rw [Py.bind_apply, hloop]
  exact ⟨_, _, rfl⟩

/-- **C66 (violated)** The returned dict has no entry under the documented key `'ATE_estimates'` (the key is misspelt):
reading it raises `KeyError` after every successful call. -/
theorem C66_documented_key_violated (ops : ArmOps S W β α) (ate : S → Option (Fl α)) (generate : Nat → Py W (ExpData β)) (m : Int)
    (inc : Nat) (delta : Fl α) (fuel : Nat) (a b : S × W) (d : Dict String (List (Entry α)))
    (h : runSingleArm ops ate generate m inc delta fuel a = (.ok (some d), b)) : d.get? "ATE_estimates" = none := by
  unfold runSingleArm at h
  rw [Py.bind_apply] at h
  generalize runLoop ops ate generate m inc delta fuel ⟨[], [], [], [], [], 0⟩ a = r at h
  obtain ⟨_ | _ | l, c⟩ := r
  · simp at h
  · simp [Py.pure_apply] at h
  · simp only [Py.pure_apply, Option.map_some, Prod.mk.injEq, Except.ok.injEq, Option.some.injEq] at h
    rw [← h.1]
    simp [Dict.get?]

/-- **C66 (violated)** With increment zero and a positive limit the loop never ends, for every arm and generator: after any
number of rounds it either has raised or is still running. -/
theorem C66_zero_increment_violated (ops : ArmOps S W β α) (ate : S → Option (Fl α)) (generate : Nat → Py W (ExpData β)) (m : Int)
    (hm : 0 < m) (delta : Fl α) (fuel : Nat) (a b : S × W) (d : Dict String (List (Entry α))) :
    runSingleArm ops ate generate m 0 delta fuel a ≠ (.ok (some d), b) := by
  have key : ∀ fuel (l : Locals α) a, l.cur = 0 → ∀ l' b, runLoop ops ate generate m 0 delta fuel l a ≠ (.ok (some l'), b) := by
    intro fuel
    induction fuel with
    | zero =>
      intro l a hl l' b
      rw [runLoop, if_pos (by omega)]
      simp [Py.pure_apply]
    | succ fuel ih =>
      intro l a hl l' b
      rw [runLoop, if_pos (by omega), Py.bind_apply]
      generalize hs : runStep ops ate generate 0 delta l a = r
      obtain ⟨_ | l1, c⟩ := r
      · simp
      · simp only
        obtain ⟨-, rfl⟩ := (runStep_inv ops ate generate 0 delta l l1 a c).mp hs
        exact ih _ c (by simp [hl]) l' b
  intro h
  unfold runSingleArm at h
  rw [Py.bind_apply] at h
  generalize hr : runLoop ops ate generate m 0 delta fuel ⟨[], [], [], [], [], 0⟩ a = r at h
  obtain ⟨_ | _ | l, c⟩ := r
  · simp at h
  · simp [Py.pure_apply] at h
  · exact key fuel _ a rfl l c hr

/-! ### Instance: an arm that counts its updates -/

/-- An arm whose state is the number of updates; its upper bound is that number. -/
def demoOps : ArmOps Nat Unit Unit Int where
  update := fun _ _ st => (.ok (.fin 0, .fin 0), (st.1 + 1, st.2))
  ci := fun s => (some (.fin 0), some (.fin s))
  varEst := fun s => some (.fin (2 * s))
  cost := fun _ => .fin 1
  numUnits := id
  reset := fun _ => 0

example : roundsNeeded 5 2 = 3 := by decide +kernel

example : runSingleArm demoOps (fun s => some (.fin (3 * s))) (fun _ w => (.ok (ExpData.new none none none), w)) 5 2 (.fin 0) 3 (0, ()) =
    (.ok (some [("LCBs", [.num (some (.fin 0)), .num (some (.fin 0)), .num (some (.fin 0))]),
      ("UCBs", [.num (some (.fin 1)), .num (some (.fin 2)), .num (some (.fin 3))]),
      ("var_estimates", [.num (some (.fin 2)), .num (some (.fin 4)), .num (some (.fin 6))]),
      ("ATE_estmitates", [.num (some (.fin 3)), .num (some (.fin 6)), .num (some (.fin 9))]),
      ("n_samples", [.int 2, .int 4, .int 6])]), (3, ())) := rfl

end TestUtils
end Verif
