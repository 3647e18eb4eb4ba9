import Verif.Lemmas.ArmsTest2
import Verif.Spec.ArmsTest

/-!
# Property C108: the project's tests of arms
-/

set_option linter.unusedSectionVars false
set_option linter.unusedSimpArgs false

namespace Verif
open Arm Param Section5

/-! ## The AIPW parameter -/

namespace AIPW
variable {M Q : Type} {R : Predictor M ℝ} {C : Predictor Q ℝ} {k : ℕ}

theorem fitted_iff {s e : AIPW M Q ℝ} (hk : s.covDim = k) {us : List (Obs ℝ)} (h : (ops R C).fit s (Obs.dataset k us) = (.ok (), e)) :
    e.hasBeenFit = (s.hasBeenFit || !tooFew s.minUnits (Obs.dataset k us).nUnits (us.map Obs.x)) ∧ e.minOverlap = s.minOverlap ∧ e.covDim = k ∧ e.minUnits = s.minUnits := by
  subst hk
  change fit R C (Obs.dataset s.covDim us) s = _ at h
  cases hf : tooFew s.minUnits (Obs.dataset s.covDim us).nUnits (us.map Obs.x) with
  | true =>
    rw [fit_few R C us s hf] at h
    obtain ⟨-, rfl⟩ := Prod.mk.inj h
    simp
  | false =>
    rw [fit_enough R C us s hf] at h
    generalize R.fitRows (us.map fun u => u.xv :: u.zv) (us.map Obs.yv) s.response = r at h
    generalize C.fitRows (us.map Obs.zv) (us.map Obs.xv) s.propensity = r' at h
    obtain ⟨_ | _, m⟩ := r
    · simp at h
    · obtain ⟨_ | _, p⟩ := r'
      · simp at h
      · obtain ⟨-, rfl⟩ := Prod.mk.inj h
        simp

end AIPW

namespace Example
variable {p beta alpha : ℝ}

/-- equal scores of units with the same covariate and exposure come from equal normal numbers -/
theorem score_injective (mu : ℝ → List ℝ → ℝ) {e : List ℝ → ℝ} (he : ∀ z, 0 < e z ∧ e z < 1) {q q' : ℝ × ℝ × ℝ} (hq : zx p alpha q = zx p alpha q')
    (h : aipwScore mu e (backUnit p beta alpha q) = aipwScore mu e (backUnit p beta alpha q')) : q.2.2 = q'.2.2 := by
  obtain ⟨h1, h2⟩ := Prod.mk.inj hq
  have ez : ∀ q : ℝ × ℝ × ℝ, (backUnit p beta alpha q).zv = [bZ p q.1] := fun q => congrArg (fun x => [x]) (trunc_bit _ _)
  have ex : ∀ q : ℝ × ℝ × ℝ, (backUnit p beta alpha q).xv = bX p alpha q.1 q.2.1 := fun q => trunc_bit _ _
  have ey : ∀ q : ℝ × ℝ × ℝ, (backUnit p beta alpha q).yv = 10 * bX p alpha q.1 q.2.1 + beta * bZ p q.1 + q.2.2 := fun q => rfl
  unfold aipwScore at h
  rw [ez, ez, ex, ex, ey, ey, h1, h2] at h
  obtain ⟨e0, e1⟩ := he [bZ p q'.1]
  have hne : bX p alpha q'.1 q'.2.1 / e [bZ p q'.1] - (1 - bX p alpha q'.1 q'.2.1) / (1 - e [bZ p q'.1]) ≠ 0 := by
    rcases (zx_cases p alpha q').2 with hx | hx
    · rw [show bX p alpha q'.1 q'.2.1 = 0 from hx]
      have : 1 - e [bZ p q'.1] ≠ 0 := by linarith
      simp [this]
    · rw [show bX p alpha q'.1 q'.2.1 = 1 from hx]
      simp [e0.ne']
  have := mul_right_cancel₀ hne (add_left_cancel h)
  linarith

/-- five units with different normal numbers do not have equal scores -/
theorem scores_vary (mu : ℝ → List ℝ → ℝ) {e : List ℝ → ℝ} (he : ∀ z, 0 < e z ∧ e z < 1) (N : ℕ → ℝ × ℝ × ℝ) {J : List ℕ} (hJ : J.Nodup) (h5 : 5 ≤ J.length)
    (hN : ∀ i ∈ J, ∀ j ∈ J, (N i).2.2 = (N j).2.2 → i = j) {L : List ℕ} (hL : J ⊆ L) :
    0 < pvar (L.map fun i => aipwScore mu e (backUnit p beta alpha (N i))) := by
  refine lt_of_le_of_ne (pvar_nonneg _) fun h0 => ?_
  have hc := pvar_eq_zero h0.symm
  obtain ⟨i, hi, j, hj, hij, hz⟩ := Finset.exists_ne_map_eq_of_card_lt_of_maps_to (s := J.toFinset) (t := ({0, 1} : Finset ℝ) ×ˢ ({0, 1} : Finset ℝ)) (f := fun i => zx p alpha (N i)) (by
      rw [List.toFinset_card_of_nodup hJ, Finset.card_product, Finset.card_pair zero_ne_one]
      omega) (by
      intro i _
      obtain ⟨h1, h2⟩ := zx_cases p alpha (N i)
      simp only [Finset.coe_product, Set.mem_prod, Finset.coe_insert, Finset.coe_singleton, Set.mem_insert_iff, Set.mem_singleton_iff]
      exact ⟨h1, h2⟩)
  rw [List.mem_toFinset] at hi hj
  exact hij (hN i hi j hj (score_injective mu he hz ((hc _ (List.mem_map_of_mem (hL hi))).trans (hc _ (List.mem_map_of_mem (hL hj))).symm)))

end Example

namespace ArmsTest
open Example
variable {V : Type}

theorem backArm_fs : FsConfig backArm (1 / 20) 1 1 10 1000 1 := by
  refine ⟨rfl, rfl, rfl, rfl, rfl, rfl, ?_, ?_, ?_, ?_, ?_, ?_, ?_, ?_⟩
  any_goals norm_num
  intro n hn0
  have hn : (1000 : ℝ) ≤ n := by exact_mod_cast hn0
  have h1 : (0 : ℝ) ≤ Real.log (max 1 8 * n / 1000) := Real.log_nonneg (by
    rw [max_eq_right (by norm_num)]
    linarith)
  have h2 : (0 : ℝ) ≤ Real.log 80 := Real.log_nonneg (by norm_num)
  have h3 : (0 : ℝ) < n := by linarith
  unfold fsInner
  norm_num at h1 ⊢
  positivity

theorem backArm_transform (d : ExpData (Cell ℝ)) : backArm.transform d = .ok d := rfl

theorem exposed_iff {p alpha : ℝ} {u : ℕ → ℝ} {i : ℕ} : Exposed p alpha u i ↔ bX p alpha (u i) (u (1500 + i)) = 1 := by
  unfold Exposed bX bZ bit
  by_cases h : u i < p <;> simp [h]

theorem positions {i : ℕ} (hi : i < 1500) : firstPos 1500 i = i ∧ secondPos 1500 i = 1500 + i := by
  unfold firstPos secondPos
  rw [Nat.div_eq_of_lt hi, Nat.mod_eq_of_lt hi]
  omega

theorem five_of_count {l : List ℕ} (hl : l.Nodup) (Q : ℕ → Prop) [DecidablePred Q] : 5 ≤ l.countP (fun i => decide (Q i)) ↔ ∃ A ⊆ l.toFinset, A.card = 5 ∧ ∀ i ∈ A, Q i := by
  have e : l.countP (fun i => decide (Q i)) = (l.toFinset.filter Q).card := by
    rw [List.countP_eq_length_filter, ← List.toFinset_card_of_nodup (hl.filter _), List.toFinset_filter]
    simp
  rw [e]
  constructor
  · intro h
    obtain ⟨A, h1, h2⟩ := Finset.exists_subset_card_eq h
    exact ⟨A, h1.trans (Finset.filter_subset _ _), h2, fun i hi => (Finset.mem_filter.1 (h1 hi)).2⟩
  · rintro ⟨A, h1, h2, h3⟩
    rw [← h2]
    exact Finset.card_le_card fun i hi => Finset.mem_filter.2 ⟨h1 hi, h3 i hi⟩

theorem first_fold {rng : Verif.Rng V ℝ} {w : ℕ → V} (f n : ℕ) : foldPos 1500 (rng.perm 1500 (w 0)).1 f ⊆ foldIdx rng (fun _ => 1500) w f (n + 1) := by
  induction n with
  | zero =>
    intro i hi
    simpa [foldIdx, blockStart] using hi
  | succ n ih =>
    intro i hi
    rw [foldIdx, List.mem_append]
    exact Or.inl (ih hi)

theorem new_safe {M Q : Type} (ridge0 : M) (logistic0 : Q) : AIPW.SafeCfg 1 (AIPW.new 1 ridge0 logistic0 5 (1 / 20 : ℝ)) := by
  refine ⟨rfl, le_rfl, ?_, ?_, ?_⟩ <;> norm_num [AIPW.new, AIPW.tiny]

section
variable {M Q : Type} {R : Predictor M ℝ} {C : Predictor Q ℝ} {s : ℕ → ArmState (AIPW M Q ℝ) (Cell ℝ) ℝ} {p beta alpha : ℝ} {N : ℕ → ℝ × ℝ × ℝ} {L0 L1 : ℕ → List ℕ}

/-- a round of the arm of the test -/
theorem aipw_round {n : ℕ} (hinv : AIPW.SafeCfg 1 (s n).eta)
    (h : RoundOf (AIPW.ops R C) (s n).eta (Obs.dataset 1 ((L0 n).map fun i => backUnit p beta alpha (N i))) (Obs.dataset 1 ((L1 n).map fun i => backUnit p beta alpha (N i))) (s (n + 1)))
    {J : List ℕ} (hJ : J.Nodup) (h5 : 5 ≤ J.length) (hN : ∀ i ∈ J, ∀ j ∈ J, (N i).2.2 = (N j).2.2 → i = j) (hL : J ⊆ L1 n) :
    (s (n + 1)).eta.hasBeenFit = ((s n).eta.hasBeenFit || !tooFew (s n).eta.minUnits (Obs.dataset 1 ((L0 n).map fun i => backUnit p beta alpha (N i))).nUnits
        (((L0 n).map fun i => backUnit p beta alpha (N i)).map Obs.x)) ∧
    ∃ lo hi v, (s (n + 1)).ci = (some lo, some hi) ∧ (s (n + 1)).varEst = some v ∧
      ((lessAt lo v = true ∧ lessAt v hi = true) ↔ (s (n + 1)).eta.hasBeenFit = true) := by
  obtain ⟨e1, hf, ⟨h1, rfl, h3, h4⟩ | ⟨h1, xs, e2, e3, h2, h3, rfl, h4, h6, lo, hi, h7, h8, h9⟩⟩ := h
  · refine ⟨(AIPW.fitted_iff hinv.dim hf).1, _, _, _, h4, h3, ?_⟩
    have : (s (n + 1)).eta.hasBeenFit = false := by simpa [AIPW.ops] using h1
    rw [this]
    simp [lessAt, Fl.isNan, Fl.lt]
  · have e12 : e2 = e1 := by have := AIPW.pure_score (R := R) (C := C) e1 (Obs.dataset 1 ((L1 n).map fun i => backUnit p beta alpha (N i))); rw [h2] at this; exact this
    have e23 : (s (n + 1)).eta = e2 := by have := AIPW.pure_score (R := R) (C := C) e2 (Obs.dataset 1 ((L1 n).map fun i => backUnit p beta alpha (N i))); rw [h3] at this; exact this
    subst e12
    obtain ⟨g1, g2, g3, g4⟩ := AIPW.fitted_iff hinv.dim hf
    have hfit : e2.hasBeenFit = true := by simpa [AIPW.ops] using h1
    refine ⟨by rw [e23]; exact g1, lo, hi, _, h7, h6, ?_⟩
    rw [h8, h9, e23, hfit]
    simp only [decide_eq_true_eq, and_true, iff_true]
    have hne : ((L1 n).map fun i => backUnit p beta alpha (N i)) ≠ [] := by
      intro h0
      rw [List.map_eq_nil_iff.1 h0, List.subset_nil] at hL
      rw [hL] at h5
      simp at h5
    have hm1 : AIPW.tiny ≤ e2.minOverlap := by rw [g2]; exact hinv.tiny
    have hm2 : e2.minOverlap < 1 / 2 := by rw [g2]; exact hinv.half
    have hsc := AIPW.score_dataset R C e2 _ hfit hne hm1 hm2.le
    rw [g3] at hsc
    change (AIPW.score R C e2 _, e2) = _ at h2
    rw [hsc] at h2
    have hxs : xs = (L1 n).map fun i => aipwScore (fun x z => R.predict e2.response (x :: z)) (AIPW.eHat C e2) (backUnit p beta alpha (N i)) := by
      have := Except.ok.inj (Prod.mk.inj h2).1
      refine (List.map_injective_iff.mpr (fun a b h => by injection h) : Function.Injective (List.map (Fl.fin : ℝ → Fl ℝ))) ?_
      rw [← this, List.map_map, List.map_map]
      rfl
    rw [hxs]
    refine scores_vary _ (fun z => ?_) N hJ h5 hN hL
    have ht : (0 : ℝ) < AIPW.tiny := by unfold AIPW.tiny; positivity
    have := AIPW.clip_mem (x := C.predict e2.propensity z) (lo := e2.minOverlap) (hi := 1 - e2.minOverlap) (by linarith)
    constructor
    · exact lt_of_lt_of_le (by linarith) this.1
    · exact lt_of_le_of_lt this.2 (by linarith)

end

/-- **C108** `test_back_door_arm` depends on which 750 units of the first batch the shuffle puts into the first fold, `I`, and on the exposure of these units: whatever
the ridge and logistic regressions do (as long as they return), whatever the parameters of the SCM and the other random numbers (if the 1500 normal numbers of the first batch
differ), the test passes if at least five of the units of `I` are exposed and at least five are not, and fails otherwise. -/
theorem C108_back_door_test (rng : Verif.Rng V ℝ) (v0 : V) : ∃ I : Finset ℕ, I ⊆ Finset.range 1500 ∧ I.card = 750 ∧
    ∀ {M Q : Type} (R : Predictor M ℝ) (C : Predictor Q ℝ), R.Total → C.FitsBothClasses → ∀ (ridge0 : M) (logistic0 : Q) (fuel : ℕ), 7 ≤ fuel →
    ∀ a ∈ Set.Ico (0 : ℝ) 1, ∀ b, ∀ c ∈ Set.Ico (0 : ℝ) 1, ∀ u g : ℕ → ℝ, Set.InjOn g (Set.Iio 1500) →
    ∃ pass w', testBackDoor Numbers.gen (Numbers.rng rng) R C ridge0 logistic0 fuel (Numbers.start [a, b, c] u g v0) = (.ok (some pass), w') ∧
      (pass = true ↔ FiveOfEach (1 / 5 + 3 / 5 * a) (-(3 / 10) + 3 / 5 * c) u I) := by
  classical
  set σ := (rng.perm 1500 v0).1 with hσ
  have hlen : ∀ f, f < 2 → (foldPos 1500 σ f).length = 750 := by
    intro f hf
    unfold foldPos
    rw [ExpData.length_filter_label 1500 2 f (by omega) hf σ]
    simp
  refine ⟨(foldPos 1500 σ 0).toFinset, ?_, ?_, ?_⟩
  · intro i hi
    exact Finset.mem_range.2 (foldPos_lt (List.mem_toFinset.1 hi))
  · rw [List.toFinset_card_of_nodup (foldPos_sorted _ _ _), hlen 0 (by omega)]
  intro M Q R C hR hC ridge0 logistic0 fuel hfuel a ha b c hc u g hg
  have hv := valid_of_draws ha hc
  obtain ⟨S, hS, -⟩ := C65_backdoor_sampler (Numbers.gen (V := V)) (1 / 5 + 3 / 5 * a) (10 * (-(3 / 10) + 3 / 5 * b)) (-(3 / 10) + 3 / 5 * c) hv.le.1 hv.le.2
  generalize hp : 1 / 5 + 3 / 5 * a = p at hS hv ⊢
  generalize hb : 10 * (-(3 / 10) + 3 / 5 * b) = beta at hS
  generalize hal : -(3 / 10) + 3 / 5 * c = alpha at hS hv ⊢
  let N : ℕ → ℝ × ℝ × ℝ := fun k => numbersOf (fun i _ => u i) (fun i _ => g i) 1500 k ()
  obtain ⟨s, ci, h0, hs, hround⟩ := stream_fs (W := V) (k := 1) (x0 := .int 0) (x1 := .int 1) (AIPW.safe R C hR hC (by simp [Cell.val]) (by simp [Cell.val])) AIPW.repeatable backArm_fs rfl
    rng (size := fun _ => 1500) (fun _ => by omega) (fun n => Bandit.seedAt rng 1500 v0 n) (fun k => backUnit p beta alpha (N k)) (fun n => ⟨_, backArm_transform _⟩)
    (fun i => ⟨rfl, trunc_bit_cases _ _⟩) (Arm.init (AIPW.new 1 ridge0 logistic0 5 (1 / 20))) rfl rfl (new_safe ridge0 logistic0)
  have hJ : ∀ i ∈ foldPos 1500 σ 1, ∀ j ∈ foldPos 1500 σ 1, (N i).2.2 = (N j).2.2 → i = j := fun i hi j hj h => hg (foldPos_lt hi) (foldPos_lt hj) h
  have key := fun n => aipw_round (s := s) (N := N) (n := n) (L0 := fun n => foldIdx rng (fun _ => 1500) (fun n => Bandit.seedAt rng 1500 v0 n) 0 (n + 1))
    (L1 := fun n => foldIdx rng (fun _ => 1500) (fun n => Bandit.seedAt rng 1500 v0 n) 1 (n + 1)) (hround n).1 (hround n).2 (foldPos_sorted 1500 σ 1) (by rw [hlen 1 (by omega)]; omega) hJ (first_fold (w := fun n => Bandit.seedAt rng 1500 v0 n) 1 n)
  choose kfit lo hi v kci kvar kless using key
  have hstart : ((Arm.init (AIPW.new 1 ridge0 logistic0 5 (1 / 20)) : ArmState (AIPW M Q ℝ) (Cell ℝ) ℝ), worldAt (a := a) (b := b) (c := c) rng 1500 u g v0 0) =
      (s 0, worldAt (a := a) (b := b) (c := c) rng 1500 u g v0 0) := by rw [h0]
  obtain ⟨d, pass, hrun, hck, -, hpass⟩ := checks_of_rounds (ate := fun s => s.ate) (st := fun n => (s n, worldAt (a := a) (b := b) (c := c) rng 1500 u g v0 n))
    (fun n => back_round (a := a) (b := b) (c := c) (by omega) hv.le.1 hv.le.2 rfl hS (.fin 1) v0 u g hs n) kci kvar hfuel
  refine ⟨pass, worldAt (a := a) (b := b) (c := c) rng 1500 u g v0 7, ?_, ?_⟩
  · unfold testBackDoor
    rw [backDoor_start, hp, hb, hal, hS]
    simp only [Except.map]
    have e : ({ Numbers.start [a, b, c] u g v0 with i := 3 } : Numbers V) = worldAt (a := a) (b := b) (c := c) rng 1500 u g v0 0 := by
      simp [worldAt, Numbers.start, Bandit.seedAt]
    rw [e, hstart]
    unfold runArm
    rw [hrun]
    simp only [hck]
  · rw [hpass]
    have hmono : ∀ n, (s 1).eta.hasBeenFit = true → (s (n + 1)).eta.hasBeenFit = true := by
      intro n h1
      induction n with
      | zero => exact h1
      | succ n ih => rw [kfit, ih, Bool.true_or]
    have h1 : (∀ k < 7, lessAt (lo k) (v k) = true ∧ lessAt (v k) (hi k) = true) ↔ (s 1).eta.hasBeenFit = true :=
      ⟨fun h => (kless 0).1 (h 0 (by omega)), fun h k _ => (kless k).2 (hmono k h)⟩
    rw [h1, kfit 0, h0]
    have hidx : foldIdx rng (fun _ => 1500) (fun n => Bandit.seedAt rng 1500 v0 n) 0 1 = foldPos 1500 σ 0 := by
      simp [foldIdx, blockStart, Bandit.seedAt, hσ]
    have hbin : ∀ x ∈ (foldPos 1500 σ 0).map (fun i => backUnit p beta alpha (N i)), x.Binary := by
      intro x hx
      obtain ⟨i, -, rfl⟩ := List.mem_map.1 hx
      have := (zx_cases p alpha (N i)).2
      unfold Obs.Binary
      rw [show (backUnit p beta alpha (N i)).xv = (zx p alpha (N i)).2 from trunc_bit _ _]
      exact this
    simp only [Arm.init, AIPW.new, Bool.false_or, Bool.not_eq_true', Nat.zero_add]
    rw [hidx, ← Bool.not_eq_true, Obs.tooFew_iff _ hbin, not_not]
    have hx : ∀ i ∈ foldPos 1500 σ 0, (backUnit p beta alpha (N i)).xv = bX p alpha (u i) (u (1500 + i)) := by
      intro i hi
      obtain ⟨q1, q2⟩ := positions (foldPos_lt hi)
      rw [show (backUnit p beta alpha (N i)).xv = bX p alpha (N i).1 (N i).2.1 from trunc_bit _ _]
      simp only [N, numbersOf, q1, q2]
    unfold FiveOfEach
    rw [← five_of_count (foldPos_sorted 1500 σ 0), ← five_of_count (foldPos_sorted 1500 σ 0)]
    unfold Obs.treated Obs.control
    rw [List.countP_map, List.countP_map]
    rw [List.countP_congr (q := fun i => decide (Exposed p alpha u i)) (by
      intro i hi
      simp only [Function.comp, decide_eq_true_eq, exposed_iff, hx i hi])]
    rw [List.countP_congr (p := (fun x => decide (x.xv = 0)) ∘ fun i => backUnit p beta alpha (N i)) (q := fun i => decide (¬ Exposed p alpha u i)) (by
      intro i hi
      simp only [Function.comp, decide_eq_true_eq, exposed_iff, hx i hi]
      rcases bit_cases (1 / 2 + alpha * bZ p (u i)) (u (1500 + i)) with h | h <;> rw [show bX p alpha (u i) (u (1500 + i)) = _ from h] <;> simp)]
    generalize (foldPos 1500 σ 0).countP _ = x
    generalize (foldPos 1500 σ 0).countP _ = y
    omega

/-- the estimators of the example below can be used -/
example (rng : Verif.Rng V ℝ) (v0 : V) : ∃ I : Finset ℕ, I.card = 750 ∧ ∀ u g : ℕ → ℝ, Set.InjOn g (Set.Iio 1500) →
    ∃ pass w', testBackDoor Numbers.gen (Numbers.rng rng) meanRidge fairLogistic 0 () 7 (Numbers.start [1 / 2, 1 / 2, 1 / 2] u g v0) = (.ok (some pass), w') ∧
      (pass = true ↔ FiveOfEach (1 / 5 + 3 / 5 * (1 / 2)) (-(3 / 10) + 3 / 5 * (1 / 2)) u I) := by
  obtain ⟨I, -, h2, h3⟩ := C108_back_door_test rng v0
  exact ⟨I, h2, fun u g hg => h3 meanRidge fairLogistic meanRidge_total fairLogistic_fits 0 () 7 le_rfl (1 / 2) (by norm_num) (1 / 2) (1 / 2) (by norm_num) u g hg⟩

/-! ## Probability -/

section
open MeasureTheory ProbabilityTheory
variable {Ω : Type} [MeasurableSpace Ω] {P : Measure Ω} {U G : ℕ → Ω → ℝ}

theorem normals_differ (h : RandomNumbers P U G) : ∀ᵐ ω ∂P, Function.Injective fun i => G i ω := by
  have := h.indep.isProbabilityMeasure
  have key : ∀ i j, i ≠ j → ∀ᵐ ω ∂P, G i ω ≠ G j ω := by
    intro i j hij
    have hind : IndepFun (G i) (G j) P := h.indep.indepFun (i := .inr i) (j := .inr j) (by simpa using hij)
    have e := (indepFun_iff_map_prod_eq_prod_map_map (h.measurable_normal i).aemeasurable (h.measurable_normal j).aemeasurable).1 hind
    rw [h.normal, h.normal] at e
    have hm : MeasurableSet {q : ℝ × ℝ | q.1 = q.2} := measurableSet_eq_fun measurable_fst measurable_snd
    have h0 : (gaussianReal 0 1).prod (gaussianReal 0 1) {q : ℝ × ℝ | q.1 = q.2} = 0 := by
      rw [Measure.measure_prod_null hm]
      refine Filter.Eventually.of_forall fun x => ?_
      have : Prod.mk x ⁻¹' {q : ℝ × ℝ | q.1 = q.2} = {x} := by
        ext y
        simp [eq_comm]
      have h1 := nullSingletonClass_gaussianReal (μ := 0) (v := 1) one_ne_zero
      show gaussianReal 0 1 _ = 0
      rw [this]
      exact measure_singleton x
    rw [← e, Measure.map_apply ((h.measurable_normal i).prodMk (h.measurable_normal j)) hm] at h0
    exact measure_eq_zero_iff_ae_notMem.1 h0
  have : ∀ᵐ ω ∂P, ∀ i j, i ≠ j → G i ω ≠ G j ω := by
    rw [ae_all_iff]; intro i
    rw [ae_all_iff]; intro j
    by_cases hij : i = j
    · exact Filter.Eventually.of_forall fun ω h => absurd hij h
    · filter_upwards [key i j hij] with ω hω _ using hω
  filter_upwards [this] with ω hω i j hij
  by_contra hne
  exact hω i j hne hij

/-- probability that the uniform numbers at some positions are all in a set -/
theorem prob_all (h : RandomNumbers P U G) {ι : Type} (A : Finset ι) (f : ι → ℕ) (hf : Function.Injective f) {s : Set ℝ} (hs : MeasurableSet s) :
    P {ω | ∀ i ∈ A, U (f i) ω ∈ s} = (volume.restrict (Set.Ico (0 : ℝ) 1) s) ^ A.card := by
  have hind : iIndepFun (fun i : ι => U (f i)) P := h.indep.precomp (g := fun i : ι => (Sum.inl (f i) : ℕ ⊕ ℕ)) fun i j hij => hf (Sum.inl.inj hij)
  have := hind.measure_inter_preimage_eq_mul A (sets := fun _ => s) (fun _ _ => hs)
  have e : {ω | ∀ i ∈ A, U (f i) ω ∈ s} = ⋂ i ∈ A, U (f i) ⁻¹' s := by
    ext ω
    simp
  rw [e, this]
  have hl : ∀ i, P (U (f i) ⁻¹' s) = volume.restrict (Set.Ico (0 : ℝ) 1) s := fun i => by
    rw [← h.unif (f i), Measure.map_apply (h.measurable_unif _) hs]
  simp [hl]

theorem prob_low {x : ℝ} (h1 : x ≤ 1) : volume.restrict (Set.Ico (0 : ℝ) 1) (Set.Iio x) = ENNReal.ofReal x := by
  rw [Measure.restrict_apply measurableSet_Iio, show Set.Iio x ∩ Set.Ico (0 : ℝ) 1 = Set.Ico 0 x by ext y; simp; constructor <;> intro h <;> grind, Real.volume_Ico, sub_zero]

theorem prob_high {x : ℝ} (h0 : 0 ≤ x) : volume.restrict (Set.Ico (0 : ℝ) 1) (Set.Ici x) = ENNReal.ofReal (1 - x) := by
  rw [Measure.restrict_apply measurableSet_Ici, show Set.Ici x ∩ Set.Ico (0 : ℝ) 1 = Set.Ico x 1 by ext y; simp; intro h _; linarith, Real.volume_Ico]

/-- five disjoint parts -/
theorem five_parts {I : Finset ℕ} (hI : I.card = 750) : ∃ e : Fin 5 × Fin 150 → ℕ, Function.Injective e ∧ ∀ q, e q ∈ I := by
  let f : Fin 5 × Fin 150 ≃ I := finProdFinEquiv.trans ((finCongr (by omega)).trans (I.equivFinOfCardEq hI).symm)
  exact ⟨fun q => f q, fun a b h => f.injective (Subtype.ext h), fun q => (f q).2⟩

theorem five_of_parts {I : Finset ℕ} {e : Fin 5 × Fin 150 → ℕ} (he : Function.Injective e) (hI : ∀ q, e q ∈ I) {Q : ℕ → Prop} (h : ¬ ∃ A ⊆ I, A.card = 5 ∧ ∀ i ∈ A, Q i) :
    ∃ j, ∀ t, ¬ Q (e (j, t)) := by
  by_contra hc
  push Not at hc
  choose t ht using hc
  refine h ⟨Finset.univ.image fun j => e (j, t j), ?_, ?_, ?_⟩
  · intro i hi
    obtain ⟨j, -, rfl⟩ := Finset.mem_image.1 hi
    exact hI _
  · rw [Finset.card_image_of_injective _ fun a b hab => (Prod.mk.inj (he hab)).1]
    simp
  · intro i hi
    obtain ⟨j, -, rfl⟩ := Finset.mem_image.1 hi
    exact ht j

theorem exposed_low {p c : ℝ} (hc : c ∈ Set.Ico (0 : ℝ) 1) {u : ℕ → ℝ} {i : ℕ} (h : u (1500 + i) < 1 / 5) : Exposed p (-(3 / 10) + 3 / 5 * c) u i := by
  unfold Exposed
  by_cases hp : u i < p
  · exact Or.inr ⟨by linarith [hc.1], hp⟩
  · exact Or.inl ⟨by linarith, hp⟩

theorem exposed_high {p c : ℝ} (hc : c ∈ Set.Ico (0 : ℝ) 1) {u : ℕ → ℝ} {i : ℕ} (h : Exposed p (-(3 / 10) + 3 / 5 * c) u i) : u (1500 + i) < 4 / 5 := by
  obtain ⟨h, -⟩ | ⟨h, -⟩ := h
  · linarith
  · linarith [hc.2]

/-- **C108** For every seed of the shuffles and all parameters of the SCM, `test_back_door_arm` fails with positive probability, and with probability at most `10 * 0.8^150`. -/
theorem C108_back_door_probability (rng : Verif.Rng V ℝ) (v0 : V) {M Q : Type} (R : Predictor M ℝ) (C : Predictor Q ℝ) (hR : R.Total) (hC : C.FitsBothClasses) (ridge0 : M) (logistic0 : Q)
    {fuel : ℕ} (hfuel : 7 ≤ fuel) {a b c : ℝ} (ha : a ∈ Set.Ico (0 : ℝ) 1) (hc : c ∈ Set.Ico (0 : ℝ) 1) (h : RandomNumbers P U G) :
    (1 / 5) ^ 750 ≤ P {ω | (testBackDoor Numbers.gen (Numbers.rng rng) R C ridge0 logistic0 fuel (Numbers.start [a, b, c] (fun i => U i ω) (fun i => G i ω) v0)).1 = .ok (some false)} ∧
    P {ω | (testBackDoor Numbers.gen (Numbers.rng rng) R C ridge0 logistic0 fuel (Numbers.start [a, b, c] (fun i => U i ω) (fun i => G i ω) v0)).1 ≠ .ok (some true)} ≤ 10 * (4 / 5) ^ 150 := by
  obtain ⟨I, -, hI, key⟩ := C108_back_door_test rng v0
  have key := fun ω hg => key R C hR hC ridge0 logistic0 fuel hfuel a ha b c hc (fun i => U i ω) (fun i => G i ω) hg
  have h15 : ENNReal.ofReal (1 / 5) = 1 / 5 := by rw [ENNReal.ofReal_div_of_pos (by norm_num)]; simp
  have h45 : ENNReal.ofReal (4 / 5) = 4 / 5 := by rw [ENNReal.ofReal_div_of_pos (by norm_num)]; simp
  have hinj : ∀ {ι : Type} {f : ι → ℕ}, Function.Injective f → Function.Injective fun i => 1500 + f i := fun hf a b hab => hf (by simpa using hab)
  constructor
  · have e := prob_all h I (fun i => 1500 + i) (hinj (f := fun i => i) fun _ _ h => h) (s := Set.Iio (1 / 5)) measurableSet_Iio
    rw [prob_low (by norm_num), h15, hI] at e
    rw [← e]
    refine measure_mono_ae ?_
    filter_upwards [normals_differ h] with ω hω hall
    obtain ⟨pass, w', e1, e2⟩ := key ω fun i _ j _ hij => hω hij
    show (testBackDoor _ _ _ _ _ _ _ _).1 = _
    rw [e1]
    have : pass = false := by
      rw [← Bool.not_eq_true, e2]
      rintro ⟨-, A, h1, h2, h3⟩
      obtain ⟨i, hi⟩ := Finset.card_pos.1 (by omega : 0 < A.card)
      exact h3 i hi (exposed_low hc (hall i (h1 hi)))
    rw [this]
  · obtain ⟨f, hf, hfI⟩ := five_parts hI
    have hfj : ∀ j, Function.Injective fun t => f (j, t) := fun j a b hab => (Prod.mk.inj (hf hab)).2
    have e1 := fun j => prob_all h Finset.univ (fun t : Fin 150 => 1500 + f (j, t)) (hinj (hfj j)) (s := Set.Ici (1 / 5)) measurableSet_Ici
    have e2 := fun j => prob_all h Finset.univ (fun t : Fin 150 => 1500 + f (j, t)) (hinj (hfj j)) (s := Set.Iio (4 / 5)) measurableSet_Iio
    rw [prob_high (by norm_num), show (1 - 1 / 5 : ℝ) = 4 / 5 by norm_num, h45, Finset.card_univ, Fintype.card_fin] at e1
    rw [prob_low (by norm_num), h45, Finset.card_univ, Fintype.card_fin] at e2
    calc _ ≤ P ((⋃ j : Fin 5, {ω | ∀ t ∈ Finset.univ, U (1500 + f (j, t)) ω ∈ Set.Ici (1 / 5)}) ∪ ⋃ j : Fin 5, {ω | ∀ t ∈ Finset.univ, U (1500 + f (j, t)) ω ∈ Set.Iio (4 / 5)}) := by
          refine measure_mono_ae ?_
          filter_upwards [normals_differ h] with ω hω hfail
          obtain ⟨pass, w', e1, e2⟩ := key ω fun i _ j _ hij => hω hij
          have hfail : (testBackDoor _ _ _ _ _ _ _ _).1 ≠ _ := hfail
          rw [e1] at hfail
          have hfive : ¬ FiveOfEach _ _ _ _ := fun h => hfail (by rw [e2.2 h])
          rw [FiveOfEach, not_and_or] at hfive
          show ω ∈ (_ ∪ _ : Set Ω)
          rcases hfive with h5 | h5
          · left
            obtain ⟨j, hj⟩ := five_of_parts hf hfI h5
            exact Set.mem_iUnion.2 ⟨j, fun t _ => le_of_not_gt fun hlt => hj t (exposed_low hc hlt)⟩
          · right
            obtain ⟨j, hj⟩ := five_of_parts hf hfI h5
            exact Set.mem_iUnion.2 ⟨j, fun t _ => exposed_high hc (not_not.1 (hj t))⟩
      _ ≤ (∑ j : Fin 5, P {ω | ∀ t ∈ Finset.univ, U (1500 + f (j, t)) ω ∈ Set.Ici (1 / 5)}) + ∑ j : Fin 5, P {ω | ∀ t ∈ Finset.univ, U (1500 + f (j, t)) ω ∈ Set.Iio (4 / 5)} :=
          (measure_union_le _ _).trans (add_le_add (measure_iUnion_fintype_le _ _) (measure_iUnion_fintype_le _ _))
      _ = 10 * (4 / 5) ^ 150 := by
          simp only [e1, e2]
          rw [Finset.sum_const, Finset.card_univ, Fintype.card_fin, nsmul_eq_mul, ← add_mul]
          norm_num

example (rng : Verif.Rng V ℝ) (v0 : V) :=
  C108_back_door_probability rng v0 meanRidge fairLogistic meanRidge_total fairLogistic_fits 0 () le_rfl (a := 1 / 2) (b := 1 / 2) (c := 1 / 2) (by norm_num) (by norm_num) Example.NumbersDemo.randomNumbers

end

end ArmsTest
end Verif
