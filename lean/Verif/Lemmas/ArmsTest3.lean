import Verif.Lemmas.ArmsTest2
import Verif.Lemmas.FrontVariance
import Verif.Props.ParametersTest

/-!
# Lemmas for the test of the front-door arm
-/

set_option linter.unusedSectionVars false
set_option linter.unusedSimpArgs false

namespace Verif
open MeasureTheory ProbabilityTheory Filter Topology Arm

/-! ## Random numbers after the first ones -/

theorem RandomNumbers.shift {Ω : Type} [MeasurableSpace Ω] {P : Measure Ω} {U G : ℕ → Ω → ℝ} (h : RandomNumbers P U G) (k l : ℕ) :
    RandomNumbers P (fun i => U (k + i)) (fun i => G (l + i)) where
  measurable_unif i := h.measurable_unif _
  measurable_normal i := h.measurable_normal _
  unif i := h.unif _
  normal i := h.normal _
  indep := by
    have := h.indep.precomp (g := Sum.map (fun i => k + i) fun i => l + i) (by
      rintro (a | a) (b | b) e <;> simp at e <;> rw [e])
    convert this using 1
    funext i
    rcases i with i | i <;> rfl

/-! ## The table of the parameter -/

namespace FrontDoor
variable {M W Ω : Type} [MeasurableSpace Ω] {P : Measure Ω} [IsProbabilityMeasure P] {S : Finset ℤ} {R : Predictor M ℝ} {SR : M → Prop} {μ : ℤ} {κ ratio lam : ℝ}
  {cfg : SSConfig (Cell ℝ) ℝ} {ridge0 : M} {rng : Rng W ℝ} {size : ℕ → ℕ} {w : ℕ → W} {δ : Fl ℝ}

/-- once there is enough data, the parameter is fitted and has seen all covariates -/
theorem eventually_seen {U : ℕ → Ω → Obs ℝ} (hU : Iid P fun i ω => (U i ω).point 1) (hfin : ∀ i ω, (U i ω).FiniteZ S)
    (hR : R.IsRidgeIntercept SR lam) (hμ : 1 ≤ μ) (h2 : κ ≤ 1 / 2) (hr : 1 ≤ ratio)
    (hp : ∀ x : ℤ, x = 0 ∨ x = 1 → ∀ a ∈ S, 1 / (S.card : ℝ) / ratio < condProb P (fun ω => (U 0 ω).point 1) x a ∧
      condProb P (fun ω => (U 0 ω).point 1) x a < 1 - 1 / (S.card : ℝ) / ratio) (hsize : ∀ n, 2 ≤ size n)
    {s : ℕ → Ω → ArmState (FrontDoor M ℝ) (Cell ℝ) ℝ} {ci : ℕ → Ω → Fl ℝ × Fl ℝ}
    (h : ∀ᵐ ω ∂P, Streams 1 cfg (ops R ridge0) rng (fun i => U i ω) size δ (fun n => s n ω) w (fun n => ci n ω))
    (h0 : ∀ᵐ ω ∂P, Regular S SR μ κ ratio (s 0 ω).eta) :
    ∀ᵐ ω ∂P, ∀ᶠ n in atTop, Regular S SR μ κ ratio (s n ω).eta ∧ (s n ω).eta.hasBeenFit = true ∧ ∀ a ∈ S, [Cell.int a] ∈ (s n ω).eta.cpd.zValues := by
  have hVm : AEMeasurable (fun ω => (U 0 ω).point 1) P := (hU.ident 0).aemeasurable_fst
  have hli : ∀ i ω, Listed S ((U i ω).point 1) := fun i ω => listed (hfin i ω)
  have hr0 : ratio ≠ 0 := by intro h; rw [h] at hr; linarith
  have hm0 : 0 ≤ 1 / (S.card : ℝ) / ratio := by positivity
  obtain ⟨a0, ha0⟩ : S.Nonempty := by
    obtain ⟨ω⟩ := nonempty_of_isProbabilityMeasure P
    obtain ⟨a, ha, -⟩ := (hfin 0 ω).2
    exact ⟨a, ha⟩
  have hrow : ∀ x : ℤ, x = 0 ∨ x = 1 → P.real {ω | ((U 0 ω).point 1).2.1 = x} ≠ 0 := fun x hx => row_pos hm0 (hp x hx a0 ha0).1
  obtain ⟨r1, r2⟩ := row_probs hVm fun ω => (hli 0 ω).1
  have q0 : 0 < ∫ ω, ((U 0 ω).point 1).2.1 ∂P := by
    rw [r1]
    have := hrow 1 (Or.inr rfl)
    rw [Int.cast_one] at this
    exact lt_of_le_of_ne measureReal_nonneg this.symm
  have q1 : ∫ ω, ((U 0 ω).point 1).2.1 ∂P < 1 := by
    rw [r1]
    have := hrow 0 (Or.inl rfl)
    rw [Int.cast_zero] at this
    have h3 := lt_of_le_of_ne measureReal_nonneg this.symm
    rw [r2] at h3
    linarith
  have hx := fold_slln hU rng size w (f := 0) (by omega) hsize (g := fun p => p.2.1) (by fun_prop) ((listed_memLp hVm (hli 0) 1 1).integrable le_rfl)
  have hfr := freq_tendsto hU hfin rng hsize w
  filter_upwards [hx, hfr, h, h0] with ω a1 a3 a4 a5
  have hreg := stream_regular hR hμ hr0 h2 hsize a4 a5 fun i => hfin i ω
  have hen := AIPW.eventually_enough (u := fun i => U i ω) hsize (fun i => (hfin i ω).binary) q0 q1 a1 μ
  have hfin' : ∀ a ∈ S, ∀ᶠ n in atTop,
      1 / (S.card : ℝ) / ratio ≤ unitFreq ((foldIdx rng size w 0 (n + 1)).map fun i => U i ω) 0 a ∧
        unitFreq ((foldIdx rng size w 0 (n + 1)).map fun i => U i ω) 0 a ≤ 1 - 1 / (S.card : ℝ) / ratio := by
    intro a ha
    have h3 := (a3 0 a (hrow 0 (Or.inl rfl))).comp (tendsto_add_atTop_nat 1)
    obtain ⟨p1, p2⟩ := hp 0 (Or.inl rfl) a ha
    filter_upwards [h3.eventually_const_le p1, h3.eventually_le_const p2] with n b1 b2
    exact ⟨b1, b2⟩
  have : ∀ᶠ n in atTop, Regular S SR μ κ ratio (s (n + 1) ω).eta ∧ (s (n + 1) ω).eta.hasBeenFit = true ∧ ∀ a ∈ S, [Cell.int a] ∈ (s (n + 1) ω).eta.cpd.zValues := by
    filter_upwards [hen, (Finset.eventually_all S).2 hfin'] with n hn b1
    obtain ⟨θ, hθ⟩ := (hreg n).2 hn
    exact ⟨(hreg (n + 1)).1, hθ.fit, fun a ha => (table_freq hr (hreg (n + 1)).1 hθ b1 a ha).1⟩
  obtain ⟨N, hN⟩ := eventually_atTop.1 this
  refine eventually_atTop.2 ⟨N + 1, fun n hn => ?_⟩
  obtain ⟨m, rfl⟩ : ∃ m, n = m + 1 := ⟨n - 1, by omega⟩
  exact hN m (by omega)

end FrontDoor

namespace ArmsTest
open Example Section5
variable {H W V : Type} {fit : LinEst H ℝ → List (List ℝ) → List ℝ → Except PyErr Unit × LinEst H ℝ} {clone : LinEst H ℝ → LinEst H ℝ}

theorem cell_setCell (x z : ℤ) (v : ℝ) (t : Tab (Cell ℝ) (List (Cell ℝ)) ℝ) (x' z' : ℤ) :
    (setCell x z v t).cell (.int x') [.int z'] = if x = x' ∧ z = z' then v else t.cell (.int x') [.int z'] := by
  unfold setCell Tab.cell
  simp only [Dict.getD_set, Cell.int.injEq]
  by_cases hx : x = x'
  · subst hx
    simp [Dict.getD_set]
  · simp [hx]

theorem set_cond (S : SCM String ℝ W) (p beta gamma alpha1 alpha2 : ℝ) (e : FrontDoor (LinEst H ℝ) ℝ) (x : ℝ) (hx : x = 0 ∨ x = 1) (z : ℝ) (hz : z = 0 ∨ z = 1) :
    FrontDoor.tableOf (setNuisances (ParametersTest.frontReturn S p beta gamma alpha1 alpha2) e) x z = frontCond beta x z := by
  unfold FrontDoor.tableOf setNuisances frontCond ParametersTest.frontReturn
  simp only [cell_setCell]
  rcases hx with rfl | rfl <;> rcases hz with rfl | rfl <;> simp [g_eq]

/-- the scores with the values that the test sets -/
theorem score_set {SR : LinEst H ℝ → Prop} {S : SCM String ℝ W} {p beta gamma alpha1 alpha2 : ℝ} (hp : 0 < p ∧ p < 1) (h1 : 1 / 4 < logistic alpha1 ∧ logistic alpha1 < 3 / 4)
    {e : FrontDoor (LinEst H ℝ) ℝ} (he : FrontDoor.Regular {0, 1} SR 5 (1 / 20) 5 e) (hfit : e.hasBeenFit = true)
    (hz : ∀ a ∈ ({0, 1} : Finset ℤ), [Cell.int a] ∈ e.cpd.zValues) {qs : List ((ℝ × ℝ) × ℝ × ℝ)} (hne : qs ≠ []) :
    (FrontDoor.score (LinEst.predictor (fun x => x) fit clone) (Obs.dataset 1 (qs.map (mediatorUnit p beta gamma alpha1 alpha2)))
      (setNuisances (ParametersTest.frontReturn S p beta gamma alpha1 alpha2) e)).1 =
        .ok ((qs.map (scoreOf p beta gamma alpha1 alpha2 (testResponse p gamma alpha2))).map Fl.fin) := by
  have hq : (setNuisances (ParametersTest.frontReturn S p beta gamma alpha1 alpha2) e).expProb = expo p alpha1 := by
    unfold setNuisances ParametersTest.frontReturn frontDoorStats expo
    simp only [g_eq]
  obtain ⟨e1, e2⟩ := expo_mem hp h1
  have hreg : FrontDoor.Regular {0, 1} (fun _ => True) 5 (1 / 20) 5 (setNuisances (ParametersTest.frontReturn S p beta gamma alpha1 alpha2) e) :=
    ⟨he.covDim, trivial, he.minUnits, he.minOverlap, he.ratio, he.xs, he.xnd, he.zs, he.znd, by rw [hq]; constructor <;> linarith⟩
  rw [FrontDoor.score_plane (S := {0, 1}) (κ := 1 / 20) (θ := ![alpha2 * p, alpha2, gamma]) (by norm_num) (by norm_num) hreg hfit ?_ hz (by simpa using hne) ?_]
  · rw [hq]
    refine congrArg (fun l : List ℝ => Except.ok (l.map Fl.fin)) ?_
    rw [List.map_map]
    refine List.map_congr_left fun q _ => ?_
    rw [Function.comp_apply, point_scoreOf (fun x hx z hz => set_cond S p beta gamma alpha1 alpha2 e x hx z hz)]
    rfl
  · intro x y
    simp [LinEst.predictor, setNuisances, ParametersTest.frontReturn, planeValue, frontDoorStats]
    ring
  · intro u hu
    obtain ⟨q, -, rfl⟩ := List.mem_map.1 hu
    exact mediatorUnit_finite q

/-! ## The run of the arm -/

theorem run_of_rounds {A : Type} {ops : ArmOps A W (Cell ℝ) ℝ} {ate : A → Option (Fl ℝ)} {generate : ℕ → Py W (ExpData (Cell ℝ))} {δ : Fl ℝ} {st : ℕ → A × W}
    (h : ∀ n, TestUtils.Round ops generate 1500 δ (st n) (st (n + 1))) (N : ℤ) {fuel : ℕ} (hf : TestUtils.roundsNeeded N 1500 ≤ fuel) :
    ∃ d, TestUtils.runSingleArm ops ate generate N 1500 δ fuel (st 0) = (.ok (some d), st (TestUtils.roundsNeeded N 1500)) := by
  let sts := (List.range (TestUtils.roundsNeeded N 1500)).map fun k => st (0 + k + 1)
  obtain ⟨d, hd⟩ : ∃ d : Dict String (List (TestUtils.Entry ℝ)), d.map Prod.fst = ["LCBs", "UCBs", "var_estimates", "ATE_estmitates", "n_samples"] ∧
        d.get? "LCBs" = some (sts.map fun x => .num (ops.ci x.1).1) ∧
        d.get? "UCBs" = some (sts.map fun x => .num (ops.ci x.1).2) ∧
        d.get? "var_estimates" = some (sts.map fun x => .num (ops.varEst x.1)) ∧
        d.get? "ATE_estmitates" = some (sts.map fun x => .num (ate x.1)) ∧
        d.get? "n_samples" = some ((List.range sts.length).map fun k : Nat => .int ((k + 1) * 1500)) := by
    refine ⟨[("LCBs", sts.map fun x => .num (ops.ci x.1).1), ("UCBs", sts.map fun x => .num (ops.ci x.1).2), ("var_estimates", sts.map fun x => .num (ops.varEst x.1)),
      ("ATE_estmitates", sts.map fun x => .num (ate x.1)), ("n_samples", (List.range sts.length).map fun k : Nat => .int ((k + 1) * 1500))], rfl, ?_, ?_, ?_, ?_, ?_⟩
    all_goals simp only [Dict.get?, String.reduceEq, reduceIte, if_true, if_false]
  have hrun := (TestUtils.C66_bookkeeping ops ate generate N 1500 (by omega) δ fuel hf (st 0) (sts.getLastD (st 0)) (some d)).2
    ⟨sts, d, by simp [sts], rounds_of h _ 0, rfl, rfl, hd⟩
  refine ⟨d, hrun.trans ?_⟩
  have e : sts.getLastD (st 0) = st (TestUtils.roundsNeeded N 1500) := by
    cases hk : TestUtils.roundsNeeded N 1500 with
    | zero => simp [sts, hk]
    | succ k => simp [sts, hk, List.range_succ]
  rw [e]

/-- the worlds of the rounds of the arm, when the run starts with `i0` uniform and `j0` normal numbers used -/
def roundWorld (rng : Verif.Rng V ℝ) (m : ℕ) (u g : ℕ → ℝ) (i0 j0 : ℕ) (v0 : V) (n : ℕ) : Numbers V :=
  ⟨u, g, i0 + n * (m + m + m), j0 + n * m, Bandit.seedAt rng m v0 n⟩

/-- the updates of an arm with the data of the front-door example, as rounds of `run_single_arm` -/
theorem front_round {E : Type} {rng : Verif.Rng V ℝ} {cfg : SSConfig (Cell ℝ) ℝ} {ops : EtaOps E (Cell ℝ) ℝ} {m k : ℕ} {δ p beta gamma alpha1 alpha2 : ℝ} (hm : 0 < m)
    (hp : 0 ≤ p ∧ p ≤ 1) {view : Obs ℝ → Obs ℝ} (ht : Shows cfg.transform 2 k view) {S : SCM String ℝ (Numbers V)}
    (hS : frontDoorScm Numbers.gen p beta gamma alpha1 alpha2 = .ok S) (cost : Fl ℝ) (v0 : V) (u g : ℕ → ℝ) (i0 j0 : ℕ) {s : ℕ → ArmState E (Cell ℝ) ℝ} {ci : ℕ → Fl ℝ × Fl ℝ}
    (hs : Streams k cfg ops rng (fun k => view (frontUnitOf p beta gamma alpha1 alpha2 (fourNumbers (fun i (_ : Unit) => u (i0 + i)) (fun i _ => g (j0 + i)) m k ())))
      (fun _ => m) (.fin δ) s (fun n => Bandit.seedAt rng m v0 n) ci) (n : ℕ) :
    TestUtils.Round (ssArmOps cfg ops realLib (Numbers.rng rng) cost) (generate S) m (.fin δ) (s n, roundWorld rng m u g i0 j0 v0 n)
      (s (n + 1), roundWorld rng m u g i0 j0 v0 (n + 1)) := by
  refine ⟨_, _, ci n, generate_front hp hS m _, ?_⟩
  show ssUpdate _ _ _ _ _ _ _ = _
  have hd : (List.range m).map (fun i => frontUnitOf p beta gamma alpha1 alpha2
        (((roundWorld rng m u g i0 j0 v0 n).unifs ((roundWorld rng m u g i0 j0 v0 n).i + i), (roundWorld rng m u g i0 j0 v0 n).unifs ((roundWorld rng m u g i0 j0 v0 n).i + m + i)),
          (roundWorld rng m u g i0 j0 v0 n).unifs ((roundWorld rng m u g i0 j0 v0 n).i + m + m + i),
          (roundWorld rng m u g i0 j0 v0 n).normals ((roundWorld rng m u g i0 j0 v0 n).j + i))) =
      (List.range m).map fun i => frontUnitOf p beta gamma alpha1 alpha2
        (fourNumbers (fun i (_ : Unit) => u (i0 + i)) (fun i _ => g (j0 + i)) m (blockStart (fun _ => m) n + i) ()) := by
    refine List.map_congr_left fun i hi => ?_
    have hi' := List.mem_range.1 hi
    have hb : blockStart (fun _ => m) n = n * m := by simp [blockStart]
    obtain ⟨d1, d2⟩ := div_pos' (a := n) hm hi'
    have f2 : ∀ t, triplePos m t (n * m + i) = n * (m + m + m) + t * m + i := by
      intro t
      rw [triplePos, d1, d2]
      ring
    rw [hb]
    unfold fourNumbers
    rw [f2, f2, f2]
    simp only [roundWorld]
    rw [show i0 + n * (m + m + m) + i = i0 + (n * (m + m + m) + 0 * m + i) by ring, show i0 + n * (m + m + m) + m + i = i0 + (n * (m + m + m) + 1 * m + i) by ring,
      show i0 + n * (m + m + m) + m + m + i = i0 + (n * (m + m + m) + 2 * m + i) by ring, show j0 + n * m + i = j0 + (n * m + i) by ring]
  rw [hd, stream_step hs n (by
    rw [ht.dataset _ (by
      intro u hu
      obtain ⟨i, -, rfl⟩ := List.mem_map.1 hu
      rfl), List.map_map]; rfl) (Numbers.rng rng) _ rfl]
  simp only [roundWorld, Numbers.rng, Prod.mk.injEq, true_and, Numbers.mk.injEq]
  refine ⟨?_, ?_, ?_⟩
  · rw [Nat.add_mul]; omega
  · rw [Nat.add_mul]; omega
  · exact (Bandit.seedAt_succ m v0 n).symm

end ArmsTest
end Verif
