import Verif.Lemmas.Consistency
import Verif.Props.Coverage

/-!
# Property C91: the estimates and intervals of sample-splitting arms converge to the variance
-/

set_option linter.unusedSectionVars false

namespace Verif
open MeasureTheory ProbabilityTheory Filter Topology

theorem maxStep_fin (a b : ℝ) : Fl.maxStep (.fin a) (.fin b) = .fin (max a b) := by
  simp only [Fl.maxStep, Fl.lt, decide_eq_true_eq]
  split
  · rw [max_eq_right (by linarith)]
  · rw [max_eq_left (by linarith)]

namespace Arm
variable {E β W Ω : Type} [MeasurableSpace Ω] {P : Measure Ω} [IsProbabilityMeasure P] {X : ℕ → Ω → ℝ}

/-- sample mean and variance converge, with two moments -/
theorem consistent2 (h : Iid P X) (h2 : MemLp (X 0) 2 P) : ∀ᵐ ω ∂P,
    Tendsto (fun n => pmean (sample X n ω)) atTop (𝓝 P[X 0]) ∧ Tendsto (fun n => pvar (sample X n ω)) atTop (𝓝 Var[X 0; P]) := by
  have hi1 : Integrable (X 0) P := h2.integrable (by norm_num)
  have hi2 : Integrable (fun ω => (X 0 ω - P[X 0]) ^ 2) P := by
    have := (h2.sub (memLp_const P[X 0])).integrable_sq
    simpa using this
  have s1 := h.slln (f := id) measurable_id hi1
  have s2 := h.slln (f := fun x => (x - P[X 0]) ^ 2) (by fun_prop) hi2
  filter_upwards [s1, s2] with ω t1 t2
  have c1 : Tendsto (fun n => pmean (sample X n ω)) atTop (𝓝 P[X 0]) := by
    simpa only [pmean_sample, id] using t1
  have c0 : Tendsto (fun n => pmean (sample X n ω) - P[X 0]) atTop (𝓝 0) := by
    simpa using c1.sub_const P[X 0]
  refine ⟨c1, ?_⟩
  have := t2.sub (c0.pow 2)
  rw [← variance_eq_integral h2.1.aemeasurable] at this
  simp only [ne_eq, OfNat.ofNat_ne_zero, not_false_eq_true, zero_pow, sub_zero] at this
  refine this.congr' ?_
  filter_upwards [eventually_ne_atTop 0] with n hn
  rw [pvar_shift hn P[X 0]]

/-- convergence of the sample variance passes to nearby observations -/
theorem pvar_tendsto {N : ℕ → ℕ} (hN : Tendsto N atTop atTop) {ys : ℕ → List ℝ} {xs : ℕ → List ℝ} {ε : ℕ → ℝ} {m v : ℝ}
    (hlen : ∀ n, (ys n).length = n) (hm : Tendsto (fun n => pmean (ys n)) atTop (𝓝 m)) (hv : Tendsto (fun n => pvar (ys n)) atTop (𝓝 v))
    (hε : Tendsto ε atTop (𝓝 0)) (hc : ∀ n, Close 2 (ε n) (xs n) (ys (N n))) :
    Tendsto (fun n => pmean (xs n)) atTop (𝓝 m) ∧ Tendsto (fun n => pvar (xs n)) atTop (𝓝 v) := by
  have hne : ∀ᶠ n in atTop, ys (N n) ≠ [] := by
    filter_upwards [hN.eventually (eventually_gt_atTop 0)] with n hn h
    have := hlen (N n)
    rw [h] at this
    simp at this
    omega
  have hm' := hm.comp hN
  have hv' := hv.comp hN
  constructor
  · have : Tendsto (fun n => pmean (xs n) - pmean (ys (N n))) atTop (𝓝 0) :=
      squeeze_zero_norm' (hne.mono fun n hn => by rw [Real.norm_eq_abs]; exact pmean_close (hc n) hn) hε
    have h := this.add hm'
    rw [zero_add] at h
    exact h.congr fun n => by simp
  · set η : ℕ → ℝ := fun n => ε n + 1 / ((n : ℝ) + 1) with hη
    have hηt : Tendsto η atTop (𝓝 0) := by simpa [hη] using hε.add tendsto_one_div_add_atTop_nhds_zero_nat
    have hηp : ∀ n, 0 < η n := fun n => by
      have := (hc n).2.1
      have : (0 : ℝ) < 1 / ((n : ℝ) + 1) := by positivity
      simp only [hη]
      linarith
    have hcη : ∀ n, Close 2 (η n) (xs n) (ys (N n)) := fun n => (hc n).mono (by
      have : (0 : ℝ) ≤ 1 / ((n : ℝ) + 1) := by positivity
      simp only [hη]
      linarith)
    have hb : Tendsto (fun n => η n * (1 + pvar (ys (N n))) + η n ^ 2) atTop (𝓝 0) := by
      have := (hηt.mul (hv'.const_add 1)).add (hηt.pow 2)
      simpa using this
    have : Tendsto (fun n => pvar (xs n) - pvar (ys (N n))) atTop (𝓝 0) :=
      squeeze_zero_norm' (hne.mono fun n hn => by rw [Real.norm_eq_abs]; exact pvar_close (hηp n) (hcη n) hn) hb
    have h := this.add hv'
    rw [zero_add] at h
    exact h.congr fun n => by simp

/-- **C91** Almost surely the estimates of the mean and of the variance converge to the true values, for every interval algorithm, if the
scores of the evaluated units are close in the mean square to independent identically distributed observations with finite variance:
the nuisance parameter may be estimated, if its error tends to zero. -/
theorem C91_estimates_converge (hX : Iid P X) (h2 : MemLp (X 0) 2 P)
    (cfg : SSConfig β ℝ) (ops : EtaOps E β ℝ) (hrep : ScoreRepeatable ops) (rng : Rng W ℝ) (δ : ℕ → Fl ℝ)
    (N : ℕ → ℕ) (hN : Tendsto N atTop atTop)
    (d : ℕ → Ω → ExpData β) (s s' : ℕ → Ω → ArmState E β ℝ) (w w' : ℕ → Ω → W) (lo hi : ℕ → Ω → Fl ℝ) (xs : ℕ → Ω → List ℝ)
    (hup : ∀ n ω, ssUpdate cfg ops realLib rng (d n ω) (δ n) (s n ω, w n ω) = (.ok (lo n ω, hi n ω), s' n ω, w' n ω))
    (hev : ∀ n ω, EvaluatedOn ops (s' n ω) (xs n ω))
    (hcl : ∀ᵐ ω ∂P, ∃ ε : ℕ → ℝ, Tendsto ε atTop (𝓝 0) ∧ ∀ n, Close 2 (ε n) (xs n ω) (sample X (N n) ω)) :
    ∀ᵐ ω ∂P, ∃ a v : ℕ → ℝ, (∀ n, (s' n ω).ate = some (.fin (a n)) ∧ (s' n ω).varEst = some (.fin (v n))) ∧
      Tendsto a atTop (𝓝 P[X 0]) ∧ Tendsto v atTop (𝓝 Var[X 0; P]) := by
  filter_upwards [consistent2 hX h2, hcl] with ω h1 hc
  obtain ⟨ε, hε, hc⟩ := hc
  obtain ⟨a1, a2⟩ := pvar_tendsto hN (fun n => length_sample n ω) h1.1 h1.2 hε hc
  refine ⟨_, _, fun n => ?_, a1, a2⟩
  obtain ⟨-, b1, b2⟩ := est_evaluated hrep (hup n ω) (hev n ω)
  exact ⟨b2, b1⟩

/-- `√(2 log(2 k² / δ)) / √n` tends to zero if `k ≤ n` -/
theorem clt_width_tendsto {δ : ℝ} (hδ : 0 < δ) {N k : ℕ → ℕ} (hN : Tendsto N atTop atTop) (hk : ∀ n, k n + 1 ≤ N n) :
    Tendsto (fun n => 2 * Real.log (1 / (δ / ((k n : ℝ) + 1) ^ 2 / 2)) / (N n : ℝ)) atTop (𝓝 0) := by
  have hlog : Tendsto (fun n : ℕ => Real.log (n : ℝ) / n) atTop (𝓝 0) := by
    have := Real.isLittleO_log_id_atTop.tendsto_div_nhds_zero
    exact this.comp tendsto_natCast_atTop_atTop
  have hinv : Tendsto (fun n : ℕ => 1 / (n : ℝ)) atTop (𝓝 0) := tendsto_one_div_atTop_nhds_zero_nat
  have hub : Tendsto (fun n => 2 * |Real.log (2 / δ)| * (1 / (N n : ℝ)) + 4 * (Real.log (N n : ℝ) / N n)) atTop (𝓝 0) := by
    have := ((hinv.const_mul (2 * |Real.log (2 / δ)|)).add (hlog.const_mul 4)).comp hN
    simp only [mul_zero, add_zero] at this
    exact this
  refine squeeze_zero_norm' (Eventually.of_forall fun n => ?_) hub
  have hN1 : 1 ≤ N n := by have := hk n; omega
  have hNr : (1 : ℝ) ≤ N n := by exact_mod_cast hN1
  have hkr : (k n : ℝ) + 1 ≤ N n := by exact_mod_cast hk n
  have hkp : (0 : ℝ) < (k n : ℝ) + 1 := by positivity
  have e : Real.log (1 / (δ / ((k n : ℝ) + 1) ^ 2 / 2)) = Real.log (2 / δ) + 2 * Real.log ((k n : ℝ) + 1) := by
    rw [show 1 / (δ / ((k n : ℝ) + 1) ^ 2 / 2) = 2 / δ * ((k n : ℝ) + 1) ^ 2 by field_simp, Real.log_mul (by positivity) (by positivity), Real.log_pow]
    push_cast; ring
  have h1 : 0 ≤ Real.log ((k n : ℝ) + 1) := Real.log_nonneg (by linarith [Nat.cast_nonneg (α := ℝ) (k n)])
  have h2 : Real.log ((k n : ℝ) + 1) ≤ Real.log (N n) := Real.log_le_log hkp hkr
  rw [e, Real.norm_eq_abs, abs_div, abs_of_pos (by linarith : (0 : ℝ) < N n), abs_mul, abs_two]
  have h3 : |Real.log (2 / δ) + 2 * Real.log ((k n : ℝ) + 1)| ≤ |Real.log (2 / δ)| + 2 * Real.log (N n) :=
    (abs_add_le _ _).trans (by rw [abs_of_nonneg (by linarith : 0 ≤ 2 * Real.log ((k n : ℝ) + 1))]; linarith)
  calc 2 * |Real.log (2 / δ) + 2 * Real.log ((k n : ℝ) + 1)| / (N n : ℝ) ≤ 2 * (|Real.log (2 / δ)| + 2 * Real.log (N n)) / (N n : ℝ) := by
        gcongr
    _ = _ := by ring

/-- both ends of the CLT intervals along one sequence of updates -/
theorem clt_path {ys : ℕ → List ℝ} (hys0 : ∀ n, (ys n).length = n) {m v q : ℝ} (hm : Tendsto (fun n => pmean (ys n)) atTop (𝓝 m))
    (hv : Tendsto (fun n => pvar (ys n)) atTop (𝓝 v)) (hq : Tendsto (fun n => pvar (sqDevs (ys n))) atTop (𝓝 q)) (hv0 : 0 ≤ v)
    {cfg : SSConfig β ℝ} (halg : cfg.alg = .clt) {ops : EtaOps E β ℝ} (hrep : ScoreRepeatable ops) {rng : Rng W ℝ} {δ : ℝ}
    {N k : ℕ → ℕ} (hN : Tendsto N atTop atTop) (hk : ∀ n, k n + 1 ≤ N n)
    {d : ℕ → ExpData β} {s s' : ℕ → ArmState E β ℝ} {w w' : ℕ → W} {lo hi : ℕ → Fl ℝ} {xs : ℕ → List ℝ}
    (hpulled : ∀ n, (s n).numPulled = k n)
    (hup : ∀ n, ssUpdate cfg ops realLib rng (d n) (.fin δ) (s n, w n) = (.ok (lo n, hi n), s' n, w' n))
    (hev : ∀ n, EvaluatedOn ops (s' n) (xs n)) {ε : ℕ → ℝ} (hε : Tendsto ε atTop (𝓝 0)) (hc : ∀ n, Close 4 (ε n) (xs n) (ys (N n))) :
    ∃ l u : ℕ → ℝ, (∀ n, lo n = .fin (l n) ∧ hi n = .fin (u n)) ∧ Tendsto l atTop (𝓝 v) ∧ Tendsto u atTop (𝓝 v) := by
  obtain ⟨a1, a2⟩ := pvar_tendsto hN hys0 hm hv hε fun n => (hc n).two
  obtain ⟨h0, h1', -⟩ := clt_evaluated halg hrep (hup 0) (hev 0)
  have hlen : ∀ n, (xs n).length = N n := fun n => (hc n).1.trans (hys0 _)
  have hys : ∀ n, ys (N n) ≠ [] := fun n h => by
    have := hys0 (N n)
    rw [h] at this
    have := hk n
    simp at *
    omega
  -- the estimated variance of the squares is bounded by a convergent sequence
  have hD : Tendsto (fun n => 8 * (pvar (sqDevs (ys (N n))) + pvar (ys (N n)) ^ 2) + 128 * ε n ^ 4) atTop
      (𝓝 (8 * (q + v ^ 2))) := by
    have := ((((hq.comp hN).add ((hv.comp hN).pow 2)).const_mul 8).add ((hε.pow 4).const_mul 128))
    simpa using this
  have hbound : ∀ n, pvar (sqDevs (xs n)) ≤ 8 * (pvar (sqDevs (ys (N n))) + pvar (ys (N n)) ^ 2) + 128 * ε n ^ 4 := by
    intro n
    have hx : xs n ≠ [] := (est_evaluated hrep (hup n) (hev n)).1
    have b1 := pvarSq_eq _ hx
    have b2 := pvarSq_eq _ (hys n)
    have b3 := dev4_close (hc n) (hys n)
    have b4 := sq_nonneg (pvar (xs n))
    rw [b1, b2]
    linarith
  have hzz : ∀ z : ℕ → ℝ, (∀ n, δ / ((k n : ℝ) + 1) ^ 2 / 2 ≤ z n ∧ z n ≤ 1 - δ / ((k n : ℝ) + 1) ^ 2 / 2) →
      Tendsto (fun n => pvar (xs n) + quantile (gaussianReal 0 1) (z n) * √(pvar (sqDevs (xs n)) / (xs n).length)) atTop (𝓝 v) := by
    intro z hz
    have hw := (clt_width_tendsto h0 hN hk).mul hD
    rw [zero_mul] at hw
    have hw' := hw.sqrt
    rw [Real.sqrt_zero] at hw'
    have : Tendsto (fun n => quantile (gaussianReal 0 1) (z n) * √(pvar (sqDevs (xs n)) / (xs n).length)) atTop (𝓝 0) := by
      refine squeeze_zero_norm' (Eventually.of_forall fun n => ?_) hw'
      have hp : 0 < δ / ((k n : ℝ) + 1) ^ 2 / 2 := by positivity
      have hN0 : (0 : ℝ) < N n := by have := hk n; exact_mod_cast (by omega : 0 < N n)
      rw [hlen n, Real.norm_eq_abs, abs_mul, abs_of_nonneg (Real.sqrt_nonneg _)]
      refine (mul_le_mul_of_nonneg_right (abs_quantile_le hp (hz n).1 (hz n).2) (Real.sqrt_nonneg _)).trans ?_
      have hlognn : 0 ≤ 2 * Real.log (1 / (δ / ((k n : ℝ) + 1) ^ 2 / 2)) := by
        have : 1 ≤ 1 / (δ / ((k n : ℝ) + 1) ^ 2 / 2) := by
          rw [le_div_iff₀ hp]
          linarith [(hz n).1.trans (hz n).2]
        linarith [Real.log_nonneg this]
      rw [← Real.sqrt_mul hlognn]
      apply Real.sqrt_le_sqrt
      rw [mul_div_assoc', div_mul_eq_mul_div]
      gcongr
      exact hbound n
    have h := a2.add this
    rw [add_zero] at h
    exact h
  have hlev : ∀ n, 0 < δ / ((k n : ℝ) + 1) ^ 2 / 2 ∧ δ / ((k n : ℝ) + 1) ^ 2 / 2 ≤ 1 / 2 := by
    intro n
    have hk1 : (1 : ℝ) ≤ ((k n : ℝ) + 1) ^ 2 := one_le_pow₀ (by linarith [Nat.cast_nonneg (α := ℝ) (k n)])
    refine ⟨by positivity, ?_⟩
    have : δ / ((k n : ℝ) + 1) ^ 2 ≤ 1 := by rw [div_le_one (by positivity)]; linarith
    linarith
  have hl := hzz (fun n => δ / ((k n : ℝ) + 1) ^ 2 / 2) fun n => ⟨le_rfl, by linarith [(hlev n).2]⟩
  have hu := hzz (fun n => 1 - δ / ((k n : ℝ) + 1) ^ 2 / 2) fun n => ⟨by linarith [(hlev n).2], le_rfl⟩
  have hmax := hl.max (tendsto_const_nhds (x := (0 : ℝ)))
  rw [max_eq_left hv0] at hmax
  refine ⟨_, _, fun n => ?_, hmax, hu⟩
  obtain ⟨-, -, -, -, e1, e2⟩ := clt_evaluated halg hrep (hup n) (hev n)
  rw [hpulled] at e1 e2
  rw [e1, e2, maxStep_fin]
  exact ⟨rfl, rfl⟩

/-- **C91** Almost surely both ends of the CLT interval converge to the variance, for any number `k ≤ N` of updates of the arm. -/
theorem C91_clt_interval_converges (hX : Iid P X) (h4 : MemLp (X 0) 4 P)
    (cfg : SSConfig β ℝ) (halg : cfg.alg = .clt) (ops : EtaOps E β ℝ) (hrep : ScoreRepeatable ops) (rng : Rng W ℝ) (δ : ℝ)
    (N k : ℕ → ℕ) (hN : Tendsto N atTop atTop) (hk : ∀ n, k n + 1 ≤ N n)
    (d : ℕ → Ω → ExpData β) (s s' : ℕ → Ω → ArmState E β ℝ) (w w' : ℕ → Ω → W) (lo hi : ℕ → Ω → Fl ℝ) (xs : ℕ → Ω → List ℝ)
    (hpulled : ∀ n ω, (s n ω).numPulled = k n)
    (hup : ∀ n ω, ssUpdate cfg ops realLib rng (d n ω) (.fin δ) (s n ω, w n ω) = (.ok (lo n ω, hi n ω), s' n ω, w' n ω))
    (hev : ∀ n ω, EvaluatedOn ops (s' n ω) (xs n ω))
    (hcl : ∀ᵐ ω ∂P, ∃ ε : ℕ → ℝ, Tendsto ε atTop (𝓝 0) ∧ ∀ n, Close 4 (ε n) (xs n ω) (sample X (N n) ω)) :
    ∀ᵐ ω ∂P, ∃ l u : ℕ → ℝ, (∀ n, lo n ω = .fin (l n) ∧ hi n ω = .fin (u n)) ∧
      Tendsto l atTop (𝓝 Var[X 0; P]) ∧ Tendsto u atTop (𝓝 Var[X 0; P]) := by
  filter_upwards [hX.consistent h4, hcl] with ω h1 hc
  obtain ⟨ε, hε, hc⟩ := hc
  exact clt_path (fun n => length_sample n ω) h1.1 h1.2.1 h1.2.2 (variance_nonneg _ _) halg hrep hN hk (fun n => hpulled n ω)
    (fun n => hup n ω) (fun n => hev n ω) hε hc

/-- both ends of the finite-sample intervals along one sequence of updates -/
theorem fs_path {ys : ℕ → List ℝ} (hys0 : ∀ n, (ys n).length = n) {m0 v : ℝ} (hm0 : Tendsto (fun n => pmean (ys n)) atTop (𝓝 m0))
    (hv : Tendsto (fun n => pvar (ys n)) atTop (𝓝 v)) (hv0 : 0 ≤ v)
    {cfg : SSConfig β ℝ} {g τ m : ℝ} (hcf : Numbers cfg g τ m) {ops : EtaOps E β ℝ} (hrep : ScoreRepeatable ops) {rng : Rng W ℝ} {δ : ℝ}
    {N : ℕ → ℕ} (hN : Tendsto N atTop atTop)
    {d : ℕ → ExpData β} {s s' : ℕ → ArmState E β ℝ} {w w' : ℕ → W} {lo hi : ℕ → Fl ℝ} {xs : ℕ → List ℝ}
    (hup : ∀ n, ssUpdate cfg ops realLib rng (d n) (.fin δ) (s n, w n) = (.ok (lo n, hi n), s' n, w' n))
    (hev : ∀ n, EvaluatedOn ops (s' n) (xs n)) {ε : ℕ → ℝ} (hε : Tendsto ε atTop (𝓝 0)) (hc : ∀ n, Close 2 (ε n) (xs n) (ys (N n)))
    {ew : ℕ → ℝ} (hew : ∀ n, ops.csWidth (s' n).eta (.fin (δ / 2)) cfg.etaSubG cfg.rho = .ok (some (.fin (ew n))))
    (hew0 : Tendsto ew atTop (𝓝 0)) :
    ∃ l u : ℕ → ℝ, (∀ᶠ n in atTop, lo n = .fin (l n) ∧ hi n = .fin (u n)) ∧ Tendsto l atTop (𝓝 v) ∧ Tendsto u atTop (𝓝 v) := by
  obtain ⟨a1, a2⟩ := pvar_tendsto hN hys0 hm0 hv hε hc
  obtain ⟨h0, h1', -, hg, hτ, hm, -⟩ := fs_closed hcf hrep (hup 0) (hev 0) (hew 0)
  have hlen : ∀ n, (xs n).length = N n := fun n => (hc n).1.trans (hys0 _)
  have hwid : Tendsto (fun n => fsHalfWidth g τ m δ (N n) + ew n ^ 2) atTop (𝓝 0) := by
    have := ((fsHalfWidth_tendsto g τ m δ hg (by linarith)).comp hN).add (hew0.pow 2)
    simpa using this
  have hl := (a2.sub hwid).max (tendsto_const_nhds (x := (0 : ℝ)))
  have hu := a2.add hwid
  rw [sub_zero, max_eq_left hv0] at hl
  rw [add_zero] at hu
  refine ⟨_, _, ?_, hl, hu⟩
  have hpos : ∀ᶠ n : ℕ in atTop, 0 < fsInner g m δ (N n) :=
    hN.eventually ((fsInner_tendsto g m δ hg (by linarith)).eventually (lt_mem_nhds (log_four_div h0 h1')))
  filter_upwards [hpos, hN.eventually (eventually_ge_atTop ⌈m⌉₊)] with n hn1 hn2
  obtain ⟨-, -, -, -, -, -, hcl⟩ := fs_closed hcf hrep (hup n) (hev n) (hew n)
  rw [hlen n] at hcl
  obtain ⟨e1, e2⟩ := hcl ((Nat.le_ceil m).trans (by exact_mod_cast hn2)) hn1.le
  rw [e1, e2]
  refine ⟨?_, rfl⟩
  show Fl.maxStep (.fin _) (.fin 0) = _
  rw [maxStep_fin, ← sub_eq_add_neg]

/-- **C91** Almost surely both ends of the finite-sample interval converge to the variance, if the nuisance width tends to zero. -/
theorem C91_finite_sample_interval_converges (hX : Iid P X) (h2 : MemLp (X 0) 2 P)
    (cfg : SSConfig β ℝ) (g τ m : ℝ) (hcf : Numbers cfg g τ m) (ops : EtaOps E β ℝ) (hrep : ScoreRepeatable ops) (rng : Rng W ℝ) (δ : ℝ)
    (N : ℕ → ℕ) (hN : Tendsto N atTop atTop)
    (d : ℕ → Ω → ExpData β) (s s' : ℕ → Ω → ArmState E β ℝ) (w w' : ℕ → Ω → W) (lo hi : ℕ → Ω → Fl ℝ) (xs : ℕ → Ω → List ℝ)
    (hup : ∀ n ω, ssUpdate cfg ops realLib rng (d n ω) (.fin δ) (s n ω, w n ω) = (.ok (lo n ω, hi n ω), s' n ω, w' n ω))
    (hev : ∀ n ω, EvaluatedOn ops (s' n ω) (xs n ω))
    (hcl : ∀ᵐ ω ∂P, ∃ ε : ℕ → ℝ, Tendsto ε atTop (𝓝 0) ∧ ∀ n, Close 2 (ε n) (xs n ω) (sample X (N n) ω))
    (ew : ℕ → Ω → ℝ) (hew : ∀ n ω, ops.csWidth (s' n ω).eta (.fin (δ / 2)) cfg.etaSubG cfg.rho = .ok (some (.fin (ew n ω))))
    (hew0 : ∀ᵐ ω ∂P, Tendsto (fun n => ew n ω) atTop (𝓝 0)) :
    ∀ᵐ ω ∂P, ∃ l u : ℕ → ℝ, (∀ᶠ n in atTop, lo n ω = .fin (l n) ∧ hi n ω = .fin (u n)) ∧
      Tendsto l atTop (𝓝 Var[X 0; P]) ∧ Tendsto u atTop (𝓝 Var[X 0; P]) := by
  filter_upwards [consistent2 hX h2, hcl, hew0] with ω h1 hc hw0
  obtain ⟨ε, hε, hc⟩ := hc
  exact fs_path (fun n => length_sample n ω) h1.1 h1.2 (variance_nonneg _ _) hcf hrep hN
    (fun n => hup n ω) (fun n => hev n ω) hε hc (fun n => hew n ω) hw0

/-! ## Examples -/

/-- draws disturbed by `1 / (n + 1)` -/
noncomputable def disturbed (n : ℕ) (ω : ℕ → ℝ) : List ℝ := (sample coord (n + 1) ω).map (· + 1 / ((n : ℝ) + 1))

theorem disturbed_close (n : ℕ) (ω : ℕ → ℝ) : Close 2 (1 / ((n : ℝ) + 1)) (disturbed n ω) (sample coord (n + 1) ω) := by
  refine close_of_sup 2 (by positivity) (by simp [disturbed]) fun i x y hx hy => ?_
  have h : (disturbed n ω)[i]? = (sample coord (n + 1) ω)[i]?.map (· + 1 / ((n : ℝ) + 1)) := by simp [disturbed]
  rw [h, hy] at hx
  simp only [Option.map_some, Option.some.injEq] at hx
  rw [← hx, add_sub_cancel_left, abs_of_pos (by positivity)]

theorem disturbed_all (P : Measure (ℕ → ℝ)) :
    ∀ᵐ ω ∂P, ∃ ε : ℕ → ℝ, Tendsto ε atTop (𝓝 0) ∧ ∀ n, Close 2 (ε n) (disturbed n ω) (sample coord (n + 1) ω) :=
  Eventually.of_forall fun ω => ⟨fun n => 1 / ((n : ℝ) + 1), tendsto_one_div_add_atTop_nhds_zero_nat, fun n => disturbed_close n ω⟩

theorem disturbed_ne (n : ℕ) (ω : ℕ → ℝ) : [] ++ disturbed n ω ≠ [] := by
  intro h
  have := congrArg List.length h
  simp [disturbed, sample] at this

/-- non-vacuity of `C91_estimates_converge` and `C91_finite_sample_interval_converges`: fresh arms fed with disturbed draws from a
three-point distribution with mean 0 and variance 1/2 -/
example : ∃ (s' : ℕ → (ℕ → ℝ) → ArmState Unit ℝ ℝ) (lo hi : ℕ → (ℕ → ℝ) → Fl ℝ),
    (∀ n ω, ssUpdate (covCfg .finiteSample 1) respEta realLib stillRng (pairs (disturbed n ω)) (.fin (1 / 10)) (init (), ()) =
      (.ok (lo n ω, hi n ω), s' n ω, ())) ∧
    (∀ᵐ ω ∂draws (threePoint 1), ∃ a v : ℕ → ℝ, (∀ n, (s' n ω).ate = some (.fin (a n)) ∧ (s' n ω).varEst = some (.fin (v n))) ∧
      Tendsto a atTop (𝓝 0) ∧ Tendsto v atTop (𝓝 (1 / 2))) ∧
    (∀ᵐ ω ∂draws (threePoint 1), ∃ l u : ℕ → ℝ, (∀ᶠ n in atTop, lo n ω = .fin (l n) ∧ hi n ω = .fin (u n)) ∧
      Tendsto l atTop (𝓝 (1 / 2)) ∧ Tendsto u atTop (𝓝 (1 / 2))) := by
  have h := fun (n : ℕ) (ω : ℕ → ℝ) => fs_fresh 1 one_pos (1 / 10) (by norm_num) (by norm_num) [] (disturbed n ω)
    (disturbed_ne n ω) (init ()) (Or.inl ⟨rfl, rfl⟩)
  choose lo hi s' h1 h2 h3 h4 using h
  refine ⟨s', lo, hi, h1, ?_, ?_⟩
  · have := C91_estimates_converge (P := draws (threePoint 1)) (X := coord) iid_coord (memLp_three 1 zero_le_one 2)
      (covCfg .finiteSample 1) respEta respEta_repeatable stillRng (fun _ => .fin (1 / 10)) (fun n => n + 1) (tendsto_add_atTop_nat 1)
      (fun n ω => pairs (disturbed n ω)) (fun _ _ => init ()) s' (fun _ _ => ()) (fun _ _ => ()) lo hi disturbed h1 h4 (disturbed_all _)
    rw [var_three, mean_three] at this
    norm_num at this ⊢
    exact this
  · have := C91_finite_sample_interval_converges (P := draws (threePoint 1)) (X := coord) iid_coord (memLp_three 1 zero_le_one 2)
      (covCfg .finiteSample 1) 1 1 2 ⟨rfl, rfl, rfl, rfl⟩ respEta respEta_repeatable stillRng (1 / 10) (fun n => n + 1) (tendsto_add_atTop_nat 1)
      (fun n ω => pairs (disturbed n ω)) (fun _ _ => init ()) s' (fun _ _ => ()) (fun _ _ => ()) lo hi disturbed h1 h4 (disturbed_all _)
      (fun _ _ => 0) (fun _ _ => rfl) (Eventually.of_forall fun _ => tendsto_const_nhds)
    rw [var_three] at this
    norm_num at this ⊢
    exact this

/-- the CLT arm of the example after `n` updates with one pair of units each -/
noncomputable def cltAfter (ω : ℕ → ℝ) : ℕ → ArmState Unit ℝ ℝ
  | 0 => init ()
  | n + 1 => (ssUpdate (covCfg .clt 1) respEta realLib stillRng (pairs [coord n ω]) (.fin (1 / 10)) (cltAfter ω n, ())).2.1

theorem clt_fresh {W : Type} {w : W} (ys xs : List ℝ) (hne : ys ++ xs ≠ []) (s : ArmState Unit ℝ ℝ) (hs : Fed ys s) :
    ∃ lo hi s', ssUpdate (covCfg .clt 1) respEta realLib stillRng (pairs xs) (.fin (1 / 10)) (s, w) = (.ok (lo, hi), s', w) ∧
      s'.numPulled = s.numPulled + 1 ∧ Fed (ys ++ xs) s' ∧ EvaluatedOn respEta s' (ys ++ xs) :=
  fed_update (covCfg .clt 1) rfl rfl (1 / 10) (by norm_num) (by norm_num) ys xs hne s hs ⟨_, _, .clt _ _ rfl rfl⟩

theorem cltAfter_fed (ω : ℕ → ℝ) (n : ℕ) : Fed (sample coord n ω) (cltAfter ω n) ∧ (cltAfter ω n).numPulled = n := by
  induction n with
  | zero => exact ⟨Or.inl ⟨rfl, rfl⟩, rfl⟩
  | succ n ih =>
    obtain ⟨lo, hi, s', h, h1, h2, -⟩ := clt_fresh (w := ()) (sample coord n ω) [coord n ω] (by simp) _ ih.1
    rw [cltAfter, h, sample_succ]
    exact ⟨h2, by rw [h1, ih.2]⟩

/-- non-vacuity of `C91_clt_interval_converges`: one arm, updated with one pair of units at a time -/
example : ∃ (lo hi : ℕ → (ℕ → ℝ) → Fl ℝ),
    (∀ n ω, ssUpdate (covCfg .clt 1) respEta realLib stillRng (pairs [coord n ω]) (.fin (1 / 10)) (cltAfter ω n, ()) =
      (.ok (lo n ω, hi n ω), cltAfter ω (n + 1), ())) ∧
    (∀ᵐ ω ∂draws (threePoint 1), ∃ l u : ℕ → ℝ, (∀ n, lo n ω = .fin (l n) ∧ hi n ω = .fin (u n)) ∧
      Tendsto l atTop (𝓝 (1 / 2)) ∧ Tendsto u atTop (𝓝 (1 / 2))) := by
  have h := fun (n : ℕ) (ω : ℕ → ℝ) => clt_fresh (w := ()) (sample coord n ω) [coord n ω] (by simp) _ (cltAfter_fed ω n).1
  choose lo hi s' h1 h2 h3 h4 using h
  have hs : ∀ n ω, s' n ω = cltAfter ω (n + 1) := fun n ω => by rw [cltAfter, h1]
  have h1' : ∀ n ω, ssUpdate (covCfg .clt 1) respEta realLib stillRng (pairs [coord n ω]) (.fin (1 / 10)) (cltAfter ω n, ()) =
      (.ok (lo n ω, hi n ω), cltAfter ω (n + 1), ()) := fun n ω => by rw [h1, hs]
  refine ⟨lo, hi, h1', ?_⟩
  have := C91_clt_interval_converges (P := draws (threePoint 1)) (X := coord) iid_coord (memLp_three 1 zero_le_one 4)
    (covCfg .clt 1) rfl respEta respEta_repeatable stillRng (1 / 10) (fun n => n + 1) (fun n => n) (tendsto_add_atTop_nat 1) (fun _ => le_rfl)
    (fun n ω => pairs [coord n ω]) (fun n ω => cltAfter ω n) (fun n ω => cltAfter ω (n + 1)) (fun _ _ => ()) (fun _ _ => ()) lo hi
    (fun n ω => sample coord (n + 1) ω) (fun n ω => (cltAfter_fed ω n).2) h1'
    (fun n ω => by rw [← hs, sample_succ]; exact h4 n ω)
    (Eventually.of_forall fun ω => ⟨fun _ => 0, tendsto_const_nhds, fun n => close_of_sup 4 le_rfl rfl fun i x y hx hy => by
      rw [hx] at hy; simp [Option.some.inj hy]⟩)
  rw [var_three] at this
  norm_num at this ⊢
  exact this

end Arm
end Verif
