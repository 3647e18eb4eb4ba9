import Verif.Lemmas.ArmsTest
import Verif.Props.BackDoorBandit

/-!
# The assertions of the tests of arms, and the rounds on the data of the back-door example
-/

set_option linter.unusedSectionVars false
set_option linter.unusedSimpArgs false

namespace Verif
namespace ArmsTest
open TestUtils

section
variable {S W : Type} {ops : ArmOps S W (Cell ℝ) ℝ} {ate : S → Option (Fl ℝ)} {generate : ℕ → Py W (ExpData (Cell ℝ))} {δ : Fl ℝ} {st : ℕ → S × W}

theorem mapM_value (f : ℕ → Fl ℝ) (l : List ℕ) : (l.map fun k => Entry.num (some (f k))).mapM value = .ok (l.map f) := by
  induction l with
  | nil => rfl
  | cons a l ih =>
    rw [List.map_cons, List.mapM_cons, ih]
    rfl

theorem arrayLess_eq (f g : ℕ → Fl ℝ) (l : List ℕ) : arrayLess (l.map fun k => Entry.num (some (f k))) (l.map fun k => Entry.num (some (g k))) =
    .ok (l.all fun k => lessAt (f k) (g k)) := by
  unfold arrayLess
  rw [mapM_value, mapM_value]
  simp only [bind, Except.bind, pure, Except.pure, List.length_map, beq_self_eq_true, Bool.true_and]
  congr 1
  induction l with
  | nil => rfl
  | cons a l ih =>
    simp only [List.map_cons, List.zipWith_cons_cons, List.all_cons, id]
    rw [ih]

/-- what the tests check of a run -/
theorem checks_of_rounds (h : ∀ n, Round ops generate 1500 δ (st n) (st (n + 1))) {lo hi v : ℕ → Fl ℝ} (hci : ∀ n, ops.ci (st (n + 1)).1 = (some (lo n), some (hi n)))
    (hv : ∀ n, ops.varEst (st (n + 1)).1 = some (v n)) {fuel : ℕ} (hf : 7 ≤ fuel) :
    ∃ d b, runSingleArm ops ate generate 10000 1500 δ fuel (st 0) = (.ok (some d), st 7) ∧ checks d = .ok b ∧
      d.get? "var_estimates" = some ((List.range 7).map fun k => .num (some (v k))) ∧ (b = true ↔ ∀ k < 7, lessAt (lo k) (v k) = true ∧ lessAt (v k) (hi k) = true) := by
  have hr : roundsNeeded 10000 1500 = 7 := by unfold roundsNeeded; norm_num; rfl
  let sts := (List.range 7).map fun k => st (0 + k + 1)
  obtain ⟨d, hd⟩ : ∃ d : Dict String (List (Entry ℝ)), d.map Prod.fst = ["LCBs", "UCBs", "var_estimates", "ATE_estmitates", "n_samples"] ∧
        d.get? "LCBs" = some (sts.map fun x => .num (ops.ci x.1).1) ∧
        d.get? "UCBs" = some (sts.map fun x => .num (ops.ci x.1).2) ∧
        d.get? "var_estimates" = some (sts.map fun x => .num (ops.varEst x.1)) ∧
        d.get? "ATE_estmitates" = some (sts.map fun x => .num (ate x.1)) ∧
        d.get? "n_samples" = some ((List.range sts.length).map fun k : Nat => .int ((k + 1) * 1500)) := by
    refine ⟨[("LCBs", sts.map fun x => .num (ops.ci x.1).1), ("UCBs", sts.map fun x => .num (ops.ci x.1).2), ("var_estimates", sts.map fun x => .num (ops.varEst x.1)),
      ("ATE_estmitates", sts.map fun x => .num (ate x.1)), ("n_samples", (List.range sts.length).map fun k : Nat => .int ((k + 1) * 1500))], rfl, ?_, ?_, ?_, ?_, ?_⟩
    all_goals simp only [Dict.get?, String.reduceEq, reduceIte, if_true, if_false]
  have hrun := (C66_bookkeeping ops ate generate 10000 1500 (by omega) δ fuel (by rw [hr]; exact hf) (st 0) (sts.getLastD (st 0)) (some d)).2
    ⟨sts, d, by simp [sts, hr], rounds_of h 7 0, rfl, rfl, hd⟩
  obtain ⟨-, h1, h2, h3, -, h5⟩ := hd
  have e1 : (sts.map fun x => (Entry.num (ops.ci x.1).1 : Entry ℝ)) = (List.range 7).map fun k => .num (some (lo k)) := by
    simp only [sts, List.map_map]
    exact List.map_congr_left fun k _ => by simp only [Function.comp, Nat.zero_add, hci]
  have e2 : (sts.map fun x => (Entry.num (ops.ci x.1).2 : Entry ℝ)) = (List.range 7).map fun k => .num (some (hi k)) := by
    simp only [sts, List.map_map]
    exact List.map_congr_left fun k _ => by simp only [Function.comp, Nat.zero_add, hci]
  have e3 : (sts.map fun x => (Entry.num (ops.varEst x.1) : Entry ℝ)) = (List.range 7).map fun k => .num (some (v k)) := by
    simp only [sts, List.map_map]
    exact List.map_congr_left fun k _ => by simp only [Function.comp, Nat.zero_add, hv]
  rw [e1] at h1
  rw [e2] at h2
  rw [e3] at h3
  have e5 : ((List.range sts.length).map fun k : Nat => (Entry.int ((k + 1) * 1500) : Entry ℝ)) = (List.range 7).map fun k : Nat => .int (1500 * (k + 1)) := by
    have : sts.length = 7 := by simp [sts]
    rw [this]
    exact List.map_congr_left fun k _ => by rw [mul_comm]
  rw [e5] at h5
  refine ⟨d, ((List.range 7).all fun k => lessAt (lo k) (v k)) && (List.range 7).all fun k => lessAt (v k) (hi k), hrun, ?_, h3, ?_⟩
  · unfold checks lookup
    rw [h1, h2, h3, h5]
    simp only [bind, Except.bind, pure, Except.pure, arrayLess_eq, decide_true]
    cases ((List.range 7).all fun k => lessAt (lo k) (v k)) <;> cases ((List.range 7).all fun k => lessAt (v k) (hi k)) <;> rfl
  · simp only [Bool.and_eq_true, List.all_eq_true, List.mem_range]
    exact ⟨fun h k hk => ⟨h.1 k hk, h.2 k hk⟩, fun h => ⟨fun k hk => (h k hk).1, fun k hk => (h k hk).2⟩⟩

end
end ArmsTest

namespace Example
open Arm Section5
variable {V E : Type} {rng : Verif.Rng V ℝ} {cfg : SSConfig (Cell ℝ) ℝ} {ops : EtaOps E (Cell ℝ) ℝ} {m : ℕ} {δ : ℝ} {p beta alpha a b c : ℝ}

/-- the updates of an arm with the data of the example, as rounds of `run_single_arm` -/
theorem back_round (hm : 0 < m) (hp : 0 ≤ p ∧ p ≤ 1) (ha : 0 ≤ 1 / 2 + alpha ∧ 1 / 2 + alpha ≤ 1) (ht : cfg.transform = ExpData.identityFn) {S : SCM String ℝ (Numbers V)}
    (hS : backDoorScm Numbers.gen p beta alpha = .ok S) (cost : Fl ℝ) (v0 : V) (u g : ℕ → ℝ) {s : ℕ → ArmState E (Cell ℝ) ℝ} {ci : ℕ → Fl ℝ × Fl ℝ}
    (hs : Streams 1 cfg ops rng (fun k => backUnit p beta alpha (numbersOf (fun i _ => u i) (fun i _ => g i) m k ())) (fun _ => m) (.fin δ) s (fun n => Bandit.seedAt rng m v0 n) ci) (n : ℕ) :
    TestUtils.Round (ssArmOps cfg ops realLib (Numbers.rng rng) cost) (generate S) m (.fin δ)
      (s n, worldAt (a := a) (b := b) (c := c) rng m u g v0 n) (s (n + 1), worldAt (a := a) (b := b) (c := c) rng m u g v0 (n + 1)) := by
  refine ⟨_, _, ci n, generate_back hp ha hS m _, ?_⟩
  show ssUpdate _ _ _ _ _ _ _ = _
  have hd := back_block (a := a) (b := b) (c := c) (p := p) (beta := beta) (alpha := alpha) hm (fun i (_ : Unit) => u i) (fun i _ => g i) () n
  have hb : blockStart (fun _ => m) n = n * m := by simp [blockStart]
  rw [← hb] at hd
  have hd' : (List.range m).map (fun i => backUnit p beta alpha
          ((worldAt (a := a) (b := b) (c := c) rng m u g v0 n).unifs ((worldAt (a := a) (b := b) (c := c) rng m u g v0 n).i + i),
            (worldAt (a := a) (b := b) (c := c) rng m u g v0 n).unifs ((worldAt (a := a) (b := b) (c := c) rng m u g v0 n).i + m + i),
            (worldAt (a := a) (b := b) (c := c) rng m u g v0 n).normals ((worldAt (a := a) (b := b) (c := c) rng m u g v0 n).j + i))) =
        (List.range m).map fun i => backUnit p beta alpha (numbersOf (fun i _ => u i) (fun i _ => g i) m (blockStart (fun _ => m) n + i) ()) := by
    rw [← hd, hb]
    rfl
  rw [hd', stream_step hs n (by rw [ht]; rfl) (Numbers.rng rng) _ rfl]
  simp only [worldAt, Numbers.rng, Prod.mk.injEq, true_and, Numbers.mk.injEq]
  refine ⟨?_, ?_, ?_⟩
  · rw [Nat.add_mul]; omega
  · rw [Nat.add_mul]; omega
  · exact (Bandit.seedAt_succ m v0 n).symm

end Example
end Verif
