import Verif.Lemmas.FrontUnit2
import Verif.Props.ExampleScm4
import Verif.Props.FrontDoorConsistent

/-!
# Property C102: on the data of the front-door example, arms with a front-door parameter do not recover the effect returned with the SCM
-/

set_option linter.unusedSectionVars false
set_option linter.unusedSimpArgs false

namespace Verif
open MeasureTheory ProbabilityTheory Filter Topology

/-! ## The limits of `Recovers` are unique -/

section
open TestUtils
variable {S W : Type} {ops : ArmOps S W (Cell ℝ) ℝ} {ate : S → Option (Fl ℝ)} {generate : ℕ → Py W (ExpData (Cell ℝ))} {m : ℕ} {δ : Fl ℝ}

theorem runLoop_more {M : ℤ} (fuel : ℕ) : ∀ {l l' : Locals ℝ} {x y : S × W} (k : ℕ), runLoop ops ate generate M m δ fuel l x = (.ok (some l'), y) →
    runLoop ops ate generate M m δ (fuel + k) l x = (.ok (some l'), y) := by
  induction fuel with
  | zero =>
    intro l l' x y k h
    rw [runLoop] at h
    split at h
    · simp [Py.pure_apply] at h
    · rename_i hc
      cases k with
      | zero => rw [Nat.add_zero, runLoop, if_neg hc]; exact h
      | succ k => rw [← Nat.add_assoc, runLoop, if_neg hc]; exact h
  | succ fuel ih =>
    intro l l' x y k h
    rw [runLoop] at h
    rw [Nat.add_right_comm, runLoop]
    split at h
    · rename_i hc
      rw [if_pos hc]
      rw [Py.bind_apply] at h ⊢
      generalize runStep ops ate generate m δ l x = r at h ⊢
      obtain ⟨_ | l1, x1⟩ := r
      · exact h
      · exact ih k h
    · rename_i hc
      rw [if_neg hc]
      exact h

theorem runSingleArm_more {M : ℤ} {fuel : ℕ} {d : Dict String (List (Entry ℝ))} {x y : S × W} (k : ℕ) (h : runSingleArm ops ate generate M m δ fuel x = (.ok (some d), y)) :
    runSingleArm ops ate generate M m δ (fuel + k) x = (.ok (some d), y) := by
  unfold runSingleArm at h ⊢
  rw [Py.bind_apply] at h ⊢
  cases hr : runLoop ops ate generate M m δ fuel ⟨[], [], [], [], [], 0⟩ x with
  | mk r x1 =>
    rw [hr] at h
    rcases r with e | _ | l
    · simp at h
    · simp [Py.pure_apply] at h
    · rw [runLoop_more fuel k hr]
      exact h

theorem recovers_unique {start : S × W} {θ θ' v v' : ℝ} (h : Recovers ops ate generate m δ start θ v) (h' : Recovers ops ate generate m δ start θ' v') : θ = θ' := by
  by_contra hne
  have hε : 0 < |θ - θ'| / 2 := by
    have : 0 < |θ - θ'| := abs_pos.2 (sub_ne_zero.2 hne)
    linarith
  obtain ⟨N, hN⟩ := h _ hε
  obtain ⟨N', hN'⟩ := h' _ hε
  obtain ⟨f, d, x, e, ⟨l, y, a1, a2, a3⟩, -⟩ := hN (max N N') (le_max_left _ _)
  obtain ⟨f', d', x', e', ⟨l', y', b1, b2, b3⟩, -⟩ := hN' (max N N') (le_max_right _ _)
  have e := runSingleArm_more f' e
  have e' := runSingleArm_more f e'
  rw [Nat.add_comm f' f, e] at e'
  simp only [Prod.mk.injEq, Except.ok.injEq, Option.some.injEq] at e'
  rw [e'.1, b1] at a1
  rw [← Option.some.inj a1, b2] at a2
  simp only [Option.some.injEq, Entry.num.injEq, Fl.fin.injEq] at a2
  have c1 := abs_sub_lt_iff.1 a3
  have c2 := abs_sub_lt_iff.1 b3
  rw [a2] at c2
  have h3 : |θ - θ'| < |θ - θ'| / 2 + |θ - θ'| / 2 := abs_lt.2 ⟨by linarith [c1.1, c2.2], by linarith [c1.2, c2.1]⟩
  rw [add_halves] at h3
  exact lt_irrefl _ h3

end

/-- `get_remove_coordinates_fn(0)` shows the second of two covariates -/
theorem shows_removeCoord : Shows (ExpData.removeCoord 0) 2 1 fun u => { u with z := ExpData.gather [1] u.z } where
  dataset := fun us hus => by
    rw [(ExpData.C08_removeCoord_eq_mask 0 _ (Obs.dataset_wf us hus) rfl).2 0 (by rfl)]
    exact (shows_coordMask 2 [1] (by simp)).dataset us hus
  covariates := (shows_coordMask 2 [1] (by simp)).covariates

namespace Example
open Section5
variable {V : Type}

/-- the unit with the given random numbers -/
noncomputable def frontUnitOf (p beta gamma alpha1 alpha2 : ℝ) (q : (ℝ × ℝ) × ℝ × ℝ) : Obs ℝ := frontUnit p beta gamma alpha1 alpha2 q.1.1 q.1.2 q.2.1 q.2.2

theorem frontUnit_mediator (p beta gamma alpha1 alpha2 : ℝ) (q : (ℝ × ℝ) × ℝ × ℝ) :
    { frontUnitOf p beta gamma alpha1 alpha2 q with z := ExpData.gather [1] (frontUnitOf p beta gamma alpha1 alpha2 q).z } = mediatorUnit p beta gamma alpha1 alpha2 q := rfl

theorem generate_front {p beta gamma alpha1 alpha2 : ℝ} (hp : 0 ≤ p ∧ p ≤ 1) {S : SCM String ℝ (Numbers V)}
    (hS : frontDoorScm Numbers.gen p beta gamma alpha1 alpha2 = .ok S) (m : ℕ) (w : Numbers V) :
    generate S m w = (.ok (Obs.dataset 2 ((List.range m).map fun i =>
        frontUnitOf p beta gamma alpha1 alpha2 ((w.unifs (w.i + i), w.unifs (w.i + m + i)), w.unifs (w.i + m + m + i), w.normals (w.j + i)))),
      { w with i := w.i + m + m + m, j := w.j + m }) := by
  obtain ⟨S', hS', h⟩ := C65_frontdoor_sampler (Numbers.gen (V := V)) p beta gamma alpha1 alpha2 hp
  obtain rfl := Except.ok.inj (hS'.symm.trans hS)
  obtain ⟨us, vs, ts, es, w1, w2, w3, w4, e1, e2, e3, e4, e5⟩ := h m w
  rw [drawN_unif] at e1
  obtain ⟨rfl, rfl⟩ := Prod.mk.inj e1
  rw [drawN_unif] at e2
  obtain ⟨rfl, rfl⟩ := Prod.mk.inj e2
  rw [drawN_unif] at e3
  obtain ⟨rfl, rfl⟩ := Prod.mk.inj e3
  rw [drawN_gauss] at e4
  obtain ⟨rfl, rfl⟩ := Prod.mk.inj e4
  unfold generate
  rw [e5]
  simp only [Prod.mk.injEq, Except.ok.injEq, and_true]
  rw [toData_front (n := m) _ _ _ _ _ (by simp) (by simp) (by simp) (by simp)]
  congr 1
  refine List.map_congr_left fun i hi => ?_
  have hi' := List.mem_range.1 hi
  simp only [frontUnitOf, List.getD_eq_getElem?_getD, List.getElem?_map, List.getElem?_range hi', Option.map_some, Option.getD_some]

theorem frontDoor_start {a b c d e : ℝ} (u g : ℕ → ℝ) (v0 : V) : frontDoor Numbers.gen (Numbers.start [a, b, c, d, e] u g v0) =
    ((frontDoorScm Numbers.gen (1 / 5 + 3 / 5 * a) (-1 + 2 * b) (5 + 5 * c) (-(3 / 10) + 3 / 5 * d) (-(3 / 10) + 3 / 5 * e)).map fun S =>
      ⟨S, frontDoorStats (1 / 5 + 3 / 5 * a) (-1 + 2 * b) (5 + 5 * c) (-(3 / 10) + 3 / 5 * d) (-(3 / 10) + 3 / 5 * e), -(3 / 10) + 3 / 5 * d, -(3 / 10) + 3 / 5 * e,
        -1 + 2 * b, 5 + 5 * c⟩,
      { Numbers.start [a, b, c, d, e] u g v0 with i := 5 }) := by
  have e1 : (4 / 5 - 1 / 5 : ℝ) = 3 / 5 := by norm_num
  have e2 : (3 / 10 - -(3 / 10) : ℝ) = 3 / 5 := by norm_num
  have e3 : (1 - -1 : ℝ) = 2 := by norm_num
  have e4 : (10 - 5 : ℝ) = 5 := by norm_num
  unfold frontDoor uniform Numbers.gen Numbers.start
  simp only [followedBy, List.getD_cons_zero, List.getD_cons_succ, e1, e2, e3, e4]

/-- the world when round `n` begins -/
def frontWorldAt (a b c d e : ℝ) (rng : Verif.Rng V ℝ) (m : ℕ) (u g : ℕ → ℝ) (v0 : V) (n : ℕ) : Numbers V :=
  ⟨followedBy [a, b, c, d, e] u, g, 5 + n * (m + m + m), n * m, Bandit.seedAt rng m v0 n⟩

open Arm in
theorem recovers_front {Ω E : Type} [MeasurableSpace Ω] {P : Measure Ω} {U G : ℕ → Ω → ℝ} {rng : Verif.Rng V ℝ} {cfg : SSConfig (Cell ℝ) ℝ} {ops : EtaOps E (Cell ℝ) ℝ}
    {m k : ℕ} (hm : 2 ≤ m) {δ : ℝ} {s0 : ArmState E (Cell ℝ) ℝ} {θ v p beta gamma alpha1 alpha2 a b c d e : ℝ} (hp : 0 ≤ p ∧ p ≤ 1)
    {view : Obs ℝ → Obs ℝ} (ht : Shows cfg.transform 2 k view) {S : SCM String ℝ (Numbers V)} (hS : frontDoorScm Numbers.gen p beta gamma alpha1 alpha2 = .ok S) (cost : Fl ℝ) (v0 : V)
    (h : Arm.Consistent P k cfg ops rng (fun k ω => view (frontUnitOf p beta gamma alpha1 alpha2 (fourNumbers U G m k ω))) m δ s0 θ v) :
    ∀ᵐ ω ∂P, Recovers (ssArmOps cfg ops realLib (Numbers.rng rng) cost) (fun s => s.ate) (generate S) m (.fin δ)
      (s0, { Numbers.start [a, b, c, d, e] (fun i => U i ω) (fun i => G i ω) v0 with i := 5 }) θ v := by
  filter_upwards [h fun n => Bandit.seedAt rng m v0 n] with ω hω
  obtain ⟨s, ci, rfl, hs, ⟨f, q, h1, h2, h3⟩, l, r, h4, h5, h6⟩ := hω
  have hm0 : 0 < m := by omega
  have hround : ∀ n, TestUtils.Round (ssArmOps cfg ops realLib (Numbers.rng rng) cost) (generate S) m (.fin δ)
      (s n, frontWorldAt a b c d e rng m (fun i => U i ω) (fun i => G i ω) v0 n)
      (s (n + 1), frontWorldAt a b c d e rng m (fun i => U i ω) (fun i => G i ω) v0 (n + 1)) := by
    intro n
    refine ⟨_, _, ci n, generate_front hp hS m _, ?_⟩
    show ssUpdate _ _ _ _ _ _ _ = _
    have hd : (List.range m).map (fun i => frontUnitOf p beta gamma alpha1 alpha2
          (((frontWorldAt a b c d e rng m (fun i => U i ω) (fun i => G i ω) v0 n).unifs ((frontWorldAt a b c d e rng m (fun i => U i ω) (fun i => G i ω) v0 n).i + i),
            (frontWorldAt a b c d e rng m (fun i => U i ω) (fun i => G i ω) v0 n).unifs ((frontWorldAt a b c d e rng m (fun i => U i ω) (fun i => G i ω) v0 n).i + m + i)),
            (frontWorldAt a b c d e rng m (fun i => U i ω) (fun i => G i ω) v0 n).unifs ((frontWorldAt a b c d e rng m (fun i => U i ω) (fun i => G i ω) v0 n).i + m + m + i),
            (frontWorldAt a b c d e rng m (fun i => U i ω) (fun i => G i ω) v0 n).normals ((frontWorldAt a b c d e rng m (fun i => U i ω) (fun i => G i ω) v0 n).j + i))) =
        (List.range m).map fun i => frontUnitOf p beta gamma alpha1 alpha2 (fourNumbers U G m (blockStart (fun _ => m) n + i) ω) := by
      refine List.map_congr_left fun i hi => ?_
      have hi' := List.mem_range.1 hi
      have hb : blockStart (fun _ => m) n = n * m := by simp [blockStart]
      obtain ⟨d1, d2⟩ := div_pos' (a := n) hm0 hi'
      have f1 : ∀ t, followedBy [a, b, c, d, e] (fun i => U i ω) (5 + t) = U t ω := by
        intro t
        rw [followedBy, List.getD_eq_default _ _ (by simp)]
        simp
      have f2 : ∀ t, triplePos m t (n * m + i) = n * (m + m + m) + t * m + i := by
        intro t
        rw [triplePos, d1, d2]
        ring
      rw [hb]
      unfold fourNumbers
      rw [f2, f2, f2, ← f1, ← f1, ← f1]
      simp only [frontWorldAt]
      rw [show 5 + n * (m + m + m) + i = 5 + (n * (m + m + m) + 0 * m + i) by ring, show 5 + n * (m + m + m) + m + i = 5 + (n * (m + m + m) + 1 * m + i) by ring,
        show 5 + n * (m + m + m) + m + m + i = 5 + (n * (m + m + m) + 2 * m + i) by ring]
    rw [hd, stream_step hs n (by
      rw [ht.dataset _ (by
        intro u hu
        obtain ⟨i, -, rfl⟩ := List.mem_map.1 hu
        rfl), List.map_map]; rfl) (Numbers.rng rng) _ rfl]
    simp only [frontWorldAt, Numbers.rng, Prod.mk.injEq, true_and, Numbers.mk.injEq]
    refine ⟨?_, ?_, ?_⟩
    · rw [Nat.add_mul]; omega
    · rw [Nat.add_mul]; omega
    · exact (Bandit.seedAt_succ m v0 n).symm
  have := recovers_of_rounds (ops := ssArmOps cfg ops realLib (Numbers.rng rng) cost) (ate := fun s => s.ate) (by omega) hround (a := f) (q := q) (l := fun n => l (n - 1))
    (r := fun n => r (n - 1)) (θ := θ) (v := v) ?_ h2 h3 (h5.comp (tendsto_sub_atTop_nat 1)) (h6.comp (tendsto_sub_atTop_nat 1))
  · have e : frontWorldAt a b c d e rng m (fun i => U i ω) (fun i => G i ω) v0 0 =
        { Numbers.start [a, b, c, d, e] (fun i => U i ω) (fun i => G i ω) v0 with i := 5 } := by
      simp [frontWorldAt, Numbers.start, Bandit.seedAt]
    rw [e] at this
    exact this
  · have h4' := (tendsto_sub_atTop_nat 1).eventually h4
    filter_upwards [h1, h4', eventually_ge_atTop 1] with n e1 e2 hn
    refine ⟨e1.1, e1.2, ?_⟩
    obtain ⟨k, rfl⟩ : ∃ k, n = k + 1 := ⟨n - 1, by omega⟩
    obtain ⟨d, w', -, hup⟩ := hs.step k
    have := (update_varEst hup).1
    show (s (k + 1)).ci = _
    rw [this]
    simp only [Nat.add_sub_cancel] at e2 ⊢
    rw [e2]

/-- the limit is the effect only without effect -/
theorem limit_eq_tau {p beta gamma alpha1 alpha2 : ℝ} (hp : 0 < p ∧ p < 1) (hb : -1 ≤ beta ∧ beta ≤ 1) (hg : 5 ≤ gamma) (h1 : -1 ≤ alpha1 ∧ alpha1 ≤ 1) (h2 : -1 ≤ alpha2 ∧ alpha2 ≤ 1) :
    frontDoorArmLimit p beta gamma alpha1 alpha2 = gamma * (logistic beta - 1 / 2) ↔ beta = 0 := by
  obtain ⟨l1, l2⟩ := logistic_bounds hb.1 hb.2
  obtain ⟨e1, e2⟩ := expo_mem hp (logistic_bounds h1.1 h1.2)
  obtain ⟨m1, m2⟩ := logistic_bounds h1.1 h1.2
  have key : frontDoorArmLimit p beta gamma alpha1 alpha2 - gamma * (logistic beta - 1 / 2) =
      (logistic beta - 1 / 2) * (gamma - 2 * (expo p alpha1 * gamma + 2 * alpha2 * (p * logistic alpha1)) * (logistic beta - 1 / 2)) := by
    unfold frontDoorArmLimit expo
    ring
  rw [← sub_eq_zero, key, mul_eq_zero, sub_eq_zero, logistic_half]
  refine or_iff_left_iff_imp.2 fun h => absurd h ?_
  have q0 : 0 < p * logistic alpha1 := by nlinarith
  have q1 : p * logistic alpha1 < 3 / 4 := by nlinarith
  have r1 : |alpha2 * (p * logistic alpha1)| ≤ 3 / 4 := by
    rw [abs_mul, abs_of_pos q0]
    have := abs_le.2 h2
    nlinarith [abs_nonneg alpha2]
  obtain ⟨r2, r3⟩ := abs_le.1 r1
  have s1 : |expo p alpha1 * gamma + 2 * (alpha2 * (p * logistic alpha1))| ≤ 3 / 4 * gamma + 3 / 2 := by
    rw [abs_le]
    constructor <;> nlinarith
  have s2 : |logistic beta - 1 / 2| < 1 / 4 := abs_lt.2 ⟨by linarith, by linarith⟩
  have s3 : |(expo p alpha1 * gamma + 2 * (alpha2 * (p * logistic alpha1))) * (logistic beta - 1 / 2)| ≤ (3 / 4 * gamma + 3 / 2) * (1 / 4) := by
    rw [abs_mul]
    exact mul_le_mul s1 s2.le (abs_nonneg _) (by linarith)
  have s4 := (abs_le.1 s3).2
  intro h
  nlinarith

/-- **C102** For all parameters `frontdoor_scm` can draw, the limit of the estimates is off by more than half of the effect. -/
theorem C102_error_violated {p beta gamma alpha1 alpha2 : ℝ} (hp : p ∈ Set.Ico (1 / 5 : ℝ) (4 / 5)) (hb : beta ∈ Set.Ico (-1 : ℝ) 1) (hg : gamma ∈ Set.Ico (5 : ℝ) 10)
    (h1 : alpha1 ∈ Set.Ico (-(3 / 10) : ℝ) (3 / 10)) (h2 : alpha2 ∈ Set.Ico (-(3 / 10) : ℝ) (3 / 10)) :
    1 / 2 * |(frontDoorStats p beta gamma alpha1 alpha2).tau| ≤ |frontDoorArmLimit p beta gamma alpha1 alpha2 - (frontDoorStats p beta gamma alpha1 alpha2).tau| := by
  obtain ⟨l1, l2⟩ := logistic_bounds hb.1 hb.2.le
  have hp' : 0 < p ∧ p < 1 := ⟨by linarith [hp.1], by linarith [hp.2]⟩
  obtain ⟨m1, m2⟩ := logistic_bounds (t := alpha1) (by linarith [h1.1]) (by linarith [h1.2])
  obtain ⟨e1, e2⟩ := expo_mem hp' ⟨m1, m2⟩
  obtain ⟨g1, g2⟩ := hg
  have key : frontDoorArmLimit p beta gamma alpha1 alpha2 - gamma * (logistic beta - 1 / 2) =
      (logistic beta - 1 / 2) * (gamma - 2 * (expo p alpha1 * gamma + 2 * (alpha2 * (p * logistic alpha1))) * (logistic beta - 1 / 2)) := by
    unfold frontDoorArmLimit expo
    ring
  have q0 : 0 < p * logistic alpha1 := mul_pos hp'.1 (by linarith)
  have q1 : p * logistic alpha1 < 3 / 4 := by nlinarith
  have r1 : |alpha2 * (p * logistic alpha1)| ≤ 3 / 10 * (3 / 4) := by
    rw [abs_mul, abs_of_pos q0]
    exact mul_le_mul (abs_le.2 ⟨h2.1, h2.2.le⟩) q1.le q0.le (by norm_num)
  obtain ⟨r2, r3⟩ := abs_le.1 r1
  have s1 : |expo p alpha1 * gamma + 2 * (alpha2 * (p * logistic alpha1))| ≤ 3 / 4 * gamma + 9 / 20 := by
    rw [abs_le]
    constructor <;> nlinarith
  have s2 : |logistic beta - 1 / 2| < 1 / 4 := abs_lt.2 ⟨by linarith, by linarith⟩
  have s3 : |(expo p alpha1 * gamma + 2 * (alpha2 * (p * logistic alpha1))) * (logistic beta - 1 / 2)| ≤ (3 / 4 * gamma + 9 / 20) * (1 / 4) := by
    rw [abs_mul]
    exact mul_le_mul s1 s2.le (abs_nonneg _) (by linarith)
  have s4 := (abs_le.1 s3).2
  show 1 / 2 * |gamma * (g beta - 1 / 2)| ≤ |frontDoorArmLimit p beta gamma alpha1 alpha2 - gamma * (g beta - 1 / 2)|
  rw [g_eq, key, abs_mul, abs_mul, abs_of_pos (a := gamma) (by linarith)]
  have s5 : 1 / 2 * gamma ≤ |gamma - 2 * (expo p alpha1 * gamma + 2 * (alpha2 * (p * logistic alpha1))) * (logistic beta - 1 / 2)| := by
    refine le_trans ?_ (le_abs_self _)
    nlinarith
  nlinarith [abs_nonneg (logistic beta - 1 / 2)]

section
variable {Ω : Type} [MeasurableSpace Ω] {P : Measure Ω} [IsProbabilityMeasure P] {U G : ℕ → Ω → ℝ} {a b c d e : ℝ} {cfg : SSConfig (Cell ℝ) ℝ} {m : ℕ} {δ : ℝ}
  {M : Type} {R : Predictor M ℝ} {ridge0 : M} {SR : M → Prop} {lam κ ratio : ℝ} {μ : ℤ}

/-- **C102** `run_single_arm` with an arm with a `FrontDoorLinearFiniteZ` parameter on the data of `frontdoor_scm` without the confounder, whatever parameters are drawn: with
probability one, once enough samples are taken, the estimated effect is as close as desired to `frontDoorArmLimit`, which is not the returned effect: unless `beta` is 0, the
estimates do not converge to the returned effect. -/
theorem C102_front_door_arm_violated (hN : RandomNumbers P U G) (ha : a ∈ Set.Ico (0 : ℝ) 1) (hb : b ∈ Set.Ico (0 : ℝ) 1) (hc : c ∈ Set.Ico (0 : ℝ) 1)
    (hd : d ∈ Set.Ico (0 : ℝ) 1) (he : e ∈ Set.Ico (0 : ℝ) 1) (rng : Verif.Rng V ℝ) (hm : 2 ≤ m)
    (h0 : 0 < δ) (h1 : δ < 1) (halg : cfg.alg = .clt ∨ cfg.alg = .chi2) (hstable : cfg.stable = true) (ht : cfg.transform = ExpData.removeCoord 0)
    (hR : R.IsRidgeIntercept SR lam) (hl : 0 ≤ lam) (hμ : 1 ≤ μ) (hκ : 0 < κ) (hκ' : κ ≤ 1 / 4) (hr : 2 ≤ ratio)
    {s0 : ArmState (FrontDoor M ℝ) (Cell ℝ) ℝ} (hs : s0.split = none) (hnp : s0.numPulled = 0) (hreg : FrontDoor.Regular {0, 1} SR μ κ ratio s0.eta) (cost : Fl ℝ) (v0 : V) :
    ∃ v, ∀ᵐ ω ∂P, ∃ F w, frontDoor Numbers.gen (Numbers.start [a, b, c, d, e] (fun i => U i ω) (fun i => G i ω) v0) = (.ok F, w) ∧
      Recovers (ssArmOps cfg (FrontDoor.ops R ridge0) realLib (Numbers.rng rng) cost) (fun s => s.ate) (generate F.scm) m (.fin δ) (s0, w)
        (frontDoorArmLimit F.stats.muU F.beta F.gamma F.alpha1 F.alpha2) v ∧
      (F.beta ≠ 0 → ∀ v', ¬ Recovers (ssArmOps cfg (FrontDoor.ops R ridge0) realLib (Numbers.rng rng) cost) (fun s => s.ate) (generate F.scm) m (.fin δ) (s0, w)
        F.stats.tau v') := by
  have hm0 : 0 < m := by omega
  have hT := fourNumbers_measurable hN m 0
  have hL := fourNumbers_law hN hm0 0
  obtain ⟨a0, a1⟩ := ha
  obtain ⟨b0, b1⟩ := hb
  obtain ⟨c0, c1⟩ := hc
  obtain ⟨d0, d1⟩ := hd
  obtain ⟨e0, e1⟩ := he
  have hp : 0 < 1 / 5 + 3 / 5 * a ∧ 1 / 5 + 3 / 5 * a < 1 := ⟨by linarith, by linarith⟩
  have la := logistic_bounds (t := -(3 / 10) + 3 / 5 * d) (by linarith) (by linarith)
  have lb := logistic_bounds (t := -1 + 2 * b) (by linarith) (by linarith)
  obtain ⟨S, hS, -⟩ := C65_frontdoor_sampler (Numbers.gen (V := V)) (1 / 5 + 3 / 5 * a) (-1 + 2 * b) (5 + 5 * c) (-(3 / 10) + 3 / 5 * d) (-(3 / 10) + 3 / 5 * e) ⟨hp.1.le, hp.2.le⟩
  have hshow : Shows cfg.transform 2 1 fun u => { u with z := ExpData.gather [1] u.z } := by rw [ht]; exact shows_removeCoord
  have hq : 1 / ((({0, 1} : Finset ℤ)).card : ℝ) / ratio ≤ 1 / 4 := by
    rw [Finset.card_pair (by norm_num), div_div, Nat.cast_ofNat]
    exact one_div_le_one_div_of_le (by norm_num) (by linarith)
  have hcons := FrontDoor.C102_consistent (cfg := cfg) (ridge0 := ridge0) (S := {0, 1}) rng
    (U := fun k ω => mediatorUnit (1 / 5 + 3 / 5 * a) (-1 + 2 * b) (5 + 5 * c) (-(3 / 10) + 3 / 5 * d) (-(3 / 10) + 3 / 5 * e) (fourNumbers U G m k ω))
    ((fourNumbers_iid hN hm0).comp measurable_mediator) (fun i ω => mediatorUnit_finite _) (mediator_memLp_y hT hL hp la 4 (by norm_num))
    (mediator_nondegenerate hT hL hp la lb) (mediator_leastSquares hT hL hp la) hR hl hμ hκ (by linarith) (by linarith)
    (by
      intro x hx y hy
      have hx' : (x : ℝ) = 0 ∨ (x : ℝ) = 1 := by rcases hx with rfl | rfl <;> simp
      have hy' : (y : ℝ) = 0 ∨ (y : ℝ) = 1 := by
        rcases Finset.mem_insert.1 hy with rfl | hy
        · simp
        · rw [Finset.mem_singleton.1 hy]; simp
      rw [mediator_cond hT hL hp la hx' hy']
      split
      · split
        · exact ⟨by linarith, by linarith⟩
        · exact ⟨by linarith, by linarith⟩
      · exact ⟨by linarith, by linarith⟩) hm h0 h1 halg hstable
    (fun ω n => hshow.blocks (u := fun i => frontUnitOf _ _ _ _ _ (fourNumbers U G m i ω)) (fun _ => rfl) m n) hs hnp hreg
  rw [mediator_limit hT hL hp la hκ' lb] at hcons
  generalize Var[_; P] = v at hcons
  refine ⟨v, ?_⟩
  filter_upwards [recovers_front (a := a) (b := b) (c := c) (d := d) (e := e) hm ⟨hp.1.le, hp.2.le⟩ hshow hS cost v0 hcons] with ω hω
  refine ⟨_, _, by rw [frontDoor_start, hS]; rfl, hω, fun hne v' h' => hne ?_⟩
  exact (limit_eq_tau hp ⟨by linarith, by linarith⟩ (by linarith) ⟨by linarith, by linarith⟩ ⟨by linarith, by linarith⟩).1 (recovers_unique hω h')

/-- **C102** The score of the paper, with the exact nuisance values of the same units, has the returned effect as its mean: the difference is in the last term of the code. -/
theorem C102_paper_score (hN : RandomNumbers P U G) {p beta gamma alpha1 alpha2 : ℝ} (hp : 0 < p ∧ p < 1) (h1 : |alpha1| ≤ 1) (h2 : |beta| ≤ 1) :
    ∃ b, LeastSquaresIntercept P (fun ω => (mediatorUnit p beta gamma alpha1 alpha2 (fourNumbers U G 1 0 ω)).point 1) b ∧
      ∫ ω, frontDoorPaper (P.real {ω | ((mediatorUnit p beta gamma alpha1 alpha2 (fourNumbers U G 1 0 ω)).point 1).2.1 = 1}) (planeValue b)
        (condProb P fun ω => (mediatorUnit p beta gamma alpha1 alpha2 (fourNumbers U G 1 0 ω)).point 1) {0, 1} ((mediatorUnit p beta gamma alpha1 alpha2 (fourNumbers U G 1 0 ω)).point 1) ∂P =
      (frontDoorStats p beta gamma alpha1 alpha2).tau := by
  have hT := fourNumbers_measurable hN 1 0
  have hL := fourNumbers_law hN one_pos 0
  have la := logistic_bounds (abs_le.1 h1).1 (abs_le.1 h1).2
  have lb := logistic_bounds (abs_le.1 h2).1 (abs_le.1 h2).2
  exact ⟨_, mediator_leastSquares hT hL hp la, mediator_paper hT hL hp la lb⟩

end

/-- the configuration of the examples: the confounder is removed -/
noncomputable def mediatorCfg : SSConfig (Cell ℝ) ℝ := { LinReg.demoCfg .clt with transform := ExpData.removeCoord 0 }

open NumbersDemo Arm in
/-- non-vacuity of `C102_front_door_arm_violated`: the numbers of the canonical space, a new parameter with the settings of arms_test.py 44-45, batches of 1500 samples -/
example (rng : Verif.Rng V ℝ) (v0 : V) : ∃ v, ∀ᵐ ω ∂space,
    ∃ F w, frontDoor Numbers.gen (Numbers.start [1 / 2, 1 / 4, 2 / 3, 1 / 3, 0] (fun i => ω (.inl i)) (fun i => ω (.inr i)) v0) = (.ok F, w) ∧
      Recovers (ssArmOps mediatorCfg (FrontDoor.ops (idealRidgeIntercept 1) fun _ => 0) realLib (Numbers.rng rng) (.fin 1)) (fun s => s.ate) (generate F.scm) 1500 (.fin (1 / 20))
        (init (FrontDoor.new (fun _ => 0) 1 5 (1 / 20) 5), w) (frontDoorArmLimit F.stats.muU F.beta F.gamma F.alpha1 F.alpha2) v ∧
      (F.beta ≠ 0 → ∀ v', ¬ Recovers (ssArmOps mediatorCfg (FrontDoor.ops (idealRidgeIntercept 1) fun _ => 0) realLib (Numbers.rng rng) (.fin 1)) (fun s => s.ate) (generate F.scm) 1500
        (.fin (1 / 20)) (init (FrontDoor.new (fun _ => 0) 1 5 (1 / 20) 5), w) F.stats.tau v') :=
  C102_front_door_arm_violated (SR := fun _ => True) randomNumbers (by norm_num) (by norm_num) (by norm_num) (by norm_num) (by norm_num) rng (by norm_num) (by norm_num) (by norm_num)
    (Or.inl rfl) rfl rfl (idealRidgeIntercept_isRidge one_pos) zero_le_one (by norm_num) (by norm_num) (by norm_num) (by norm_num) rfl rfl
    (FrontDoor.regular_new _ trivial (by norm_num)) _ v0

/-- non-vacuity of `C102_error_violated`: an effect that is not 0 -/
example : (1 / 2 : ℝ) ∈ Set.Ico (1 / 5 : ℝ) (4 / 5) ∧ (-1 : ℝ) ∈ Set.Ico (-1 : ℝ) 1 ∧ (5 : ℝ) ∈ Set.Ico (5 : ℝ) 10 ∧ (0 : ℝ) ∈ Set.Ico (-(3 / 10) : ℝ) (3 / 10) ∧
    (frontDoorStats (1 / 2) (-1) 5 0 0).tau ≠ 0 := by
  refine ⟨by norm_num, by norm_num, by norm_num, by norm_num, ?_⟩
  show 5 * (logistic (-1) - 1 / 2) ≠ 0
  refine mul_ne_zero (by norm_num) (sub_ne_zero.2 fun h => ?_)
  have := logistic_half.1 h
  norm_num at this

open NumbersDemo in
/-- non-vacuity of `C102_paper_score` -/
example := C102_paper_score randomNumbers (p := 1 / 2) (beta := 1) (gamma := 5) (alpha1 := 0) (alpha2 := 0) (by norm_num) (by norm_num) (by norm_num)

end Example
end Verif
