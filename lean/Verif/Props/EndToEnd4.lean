import Verif.Props.EndToEnd2
import Verif.Props.EndToEnd3

/-!
# Property C100 for arms with linear regression and AIPW parameters
-/

set_option linter.unusedSectionVars false
set_option linter.unusedSimpArgs false

namespace Verif
open MeasureTheory ProbabilityTheory Filter Topology Arm Param

/-- the units seen by an arm are again independent with the same distribution -/
theorem Iid.part {Ω T : Type} [MeasurableSpace Ω] [MeasurableSpace T] {P : Measure Ω} {X : ℕ → Ω → T} (h : Iid P X) {σ : ℕ → ℕ} (hσ : Function.Injective σ) :
    Iid P fun i => X (σ i) :=
  ⟨h.indep.precomp hσ, fun i => (h.ident (σ i)).trans (h.ident (σ 0)).symm⟩

/-- arms with CLT intervals and finite scores never produce NaN -/
theorem neverNan_clt {V E : Type} {k : ℕ} {cfg : SSConfig (Cell ℝ) ℝ} {ops : EtaOps E (Cell ℝ) ℝ} {rng : Rng V ℝ} {m : ℕ} {δ : ℝ} (halg : cfg.alg = .clt)
    (hm : 2 ≤ m) (h0 : 0 < δ) (h1 : δ < 1)
    (hsc : ∀ e d xs e', ops.hasEnough e = .ok true → ops.score e d = (.ok xs, e') → e' = e ∧ ∃ ys : List ℝ, xs = ys.map Fl.fin) :
    NeverNan k cfg ops rng m δ := by
  intro u s w ci h n
  obtain ⟨d, w', hd, hup⟩ := h.step n
  obtain ⟨hδ, s1, hn1, hadd, hest⟩ := ssUpdate_inv hup
  have hsp := stream_split h (n + 1)
  have hpos := (stream_split h n).1
  generalize hci : ci n = q at *
  obtain ⟨lo, hi⟩ := q
  generalize hs' : s (n + 1) = s' at *
  cases hest with
  | few l f0 e1 _ _ _ _ => exact ⟨by simp, by simp, by simp⟩
  | enough l f0 e1 f1 sc1 e2 sc2 e3 _ _ e4 hl hf0 hfit hen hf1 hsc1 hsc2 hnan hint =>
    obtain ⟨rfl, ys, rfl⟩ := hsc _ _ _ _ hen hsc1
    obtain ⟨rfl, ys', rfl⟩ := hsc _ _ _ _ hen hsc2
    rw [hsc1] at hsc2
    simp only [Prod.mk.injEq, Except.ok.injEq, and_true] at hsc2
    rw [← hsc2] at hnan hint ⊢
    have hne : ys ≠ [] := by
      rintro rfl
      simp [sqDev, Fl.mean, Fl.isNan, Fl.sum, Fl.div, Fl.infTimes] at hnan
    have hunits : 0 < f1.nUnits := by
      rcases hsp.2 with ⟨-, h⟩ | h
      · omega
      · rw [show s1.split = _ from h] at hl
        obtain rfl := Option.some.inj hl
        obtain rfl : _ = f1 := Option.some.inj hf1
        have := foldIdx_length rng (fun _ => m) w (f := 1) (by norm_num) (fun _ : ℕ => hm) (n + 1)
        rw [Obs.dataset_nUnits, List.length_map]
        omega
    rw [mean_fin ys hne, sqDev_fin, mean_fin _ (by simpa using hne)] at hint ⊢
    have key : ∀ lo hi e4, IntervalOf cfg ops realLib (.fin δ) s1.numPulled f1 e3 (.fin (pmean (ys.map fun x => (x - pmean ys) ^ 2))) (.fin (pmean ys)) lo hi e4 →
        lo ≠ .nan ∧ hi ≠ .nan := by
      intro lo hi e4 hint
      cases hint with
      | clt sc e' _ hscore =>
        rw [hsc1] at hscore
        simp only [Prod.mk.injEq, Except.ok.injEq] at hscore
        obtain ⟨rfl, -⟩ := hscore
        obtain ⟨l, r, hlr⟩ := cltCi_fin (pmean (ys.map fun x => (x - pmean ys) ^ 2)) (pmean ys) ys hne δ h0 h1 s1.numPulled (by omega) f1.nUnits hunits
        rw [hlr]
        exact ⟨by simp, by simp⟩
      | chi2 h => rw [halg] at h; cases h
      | burnIn _ h => rw [halg] at h; cases h
      | finite _ h => rw [halg] at h; cases h
    obtain ⟨k1, k2⟩ := key _ _ _ hint
    exact ⟨k1, k2, by simp⟩

theorem exists_fin {xs : List (Fl ℝ)} (h : ∀ q ∈ xs, ∃ y : ℝ, q = .fin y) : ∃ ys : List ℝ, xs = ys.map Fl.fin := by
  induction xs with
  | nil => exact ⟨[], rfl⟩
  | cons q xs ih =>
    obtain ⟨y, rfl⟩ := h q List.mem_cons_self
    obtain ⟨ys, rfl⟩ := ih fun q hq => h q (List.mem_cons_of_mem _ hq)
    exact ⟨y :: ys, rfl⟩

/-- the scores of a `LinearRegressionParameter` are numbers -/
theorem LinReg.score_finite {k : ℕ} (e : LinReg k ℝ) (d : ExpData (Cell ℝ)) (xs : List (Fl ℝ)) (h : LinReg.score e d = .ok xs) : ∃ ys : List ℝ, xs = ys.map Fl.fin := by
  unfold LinReg.score at h
  rcases hx : Param.need d.exp with _ | x <;> rw [hx] at h
  · simp [Bind.bind, Except.bind] at h
  rcases hr : Param.cStack (vals x) d with _ | r <;> simp only [Bind.bind, Except.bind, hr] at h
  · simp at h
  rcases hy : Param.need d.rsp with _ | y <;> simp only [hy] at h
  · simp at h
  split_ifs at h
  simp only [pure, Except.pure, Except.ok.injEq] at h
  exact ⟨_, by rw [← h, List.map_map]; rfl⟩

/-- the scores of a fitted AIPW parameter are numbers -/
theorem AIPW.score_finite {M Q : Type} (R : Predictor M ℝ) (C : Predictor Q ℝ) (e : AIPW M Q ℝ) (hf : e.hasBeenFit = true) (d : ExpData (Cell ℝ)) (xs : List (Fl ℝ))
    (h : AIPW.score R C e d = .ok xs) : ∃ ys : List ℝ, xs = ys.map Fl.fin := by
  have ht : ∀ eta, AIPW.transform R C e d = .ok eta → ∀ t ∈ eta, ∃ a b c p : ℝ, t = ⟨.fin a, .fin b, .fin c, .fin p⟩ := by
    intro eta h
    unfold AIPW.transform at h
    simp only [hf, Bool.not_true, Bool.false_eq_true, if_false] at h
    split_ifs at h
    simp only [Bind.bind, Except.bind] at h
    repeat' split at h
    all_goals try simp at h
    obtain rfl := Except.ok.inj h
    rintro t ht
    obtain ⟨q, -, rfl⟩ := List.mem_map.1 ht
    exact ⟨_, _, _, _, rfl⟩
  unfold AIPW.score at h
  rcases he : AIPW.transform R C e d with _ | eta <;> simp only [he, Bind.bind, Except.bind] at h
  · simp at h
  have hfin := ht eta he
  unfold AIPW.phi at h
  split at h
  · simp at h
  rename_i hany
  simp only [Bool.or_eq_true, List.any_eq_true, not_or, not_exists, not_and, Bool.not_eq_true] at hany
  simp only [Bind.bind, Except.bind] at h
  repeat' split at h
  all_goals try simp at h
  rename_i hlen
  obtain rfl := Except.ok.inj h
  apply exists_fin
  intro q hq
  obtain ⟨⟨t, x, y⟩, hmem, rfl⟩ := List.mem_map.1 hq
  have htm := (List.of_mem_zip hmem).1
  obtain ⟨a, b, c, p, rfl⟩ := hfin t htm
  have h1 := hany.1 _ htm
  have h2 := hany.2 _ htm
  simp only [Fl.lt, decide_eq_false_iff_not, not_lt, AIPW.tiny] at h1 h2
  have hp : p ≠ 0 := by
    rintro rfl
    norm_num at h1
  have hp1 : 1 - p ≠ 0 := by
    intro h
    have : p = 1 := by linarith
    rw [this] at h2
    norm_num at h2
  exact ⟨b - a + (y - c) * (x / p - (1 - x) / (1 - p)), by simp only [AIPW.phiUnit, Fl.sub, Fl.neg, Fl.add, Fl.div, if_neg hp, if_neg hp1, ← sub_eq_add_neg, Fl.mul]⟩

/-- **C100**: arms with a `LinearRegressionParameter` and CLT intervals never produce NaN. -/
theorem LinReg.C100_never_nan {V : Type} {k : ℕ} {cfg : SSConfig (Cell ℝ) ℝ} (rng : Rng V ℝ) {m : ℕ} {δ : ℝ} (halg : cfg.alg = .clt) (hm : 2 ≤ m) (h0 : 0 < δ) (h1 : δ < 1) :
    NeverNan k cfg (LinReg.ops (k := k)) rng m δ :=
  neverNan_clt halg hm h0 h1 fun e d xs e' _ h => by
    simp only [LinReg.ops, Prod.mk.injEq] at h
    exact ⟨h.2.symm, LinReg.score_finite e d xs h.1⟩

/-- **C100**: arms with an AIPW parameter and CLT intervals never produce NaN. -/
theorem AIPW.C100_never_nan {V M Q : Type} {k : ℕ} {cfg : SSConfig (Cell ℝ) ℝ} (R : Predictor M ℝ) (C : Predictor Q ℝ) (rng : Rng V ℝ) {m : ℕ} {δ : ℝ} (halg : cfg.alg = .clt)
    (hm : 2 ≤ m) (h0 : 0 < δ) (h1 : δ < 1) : NeverNan k cfg (AIPW.ops R C) rng m δ :=
  neverNan_clt halg hm h0 h1 fun e d xs e' hen h => by
    simp only [AIPW.ops, Prod.mk.injEq] at h
    simp only [AIPW.ops, Except.ok.injEq] at hen
    exact ⟨h.2.symm, AIPW.score_finite R C e hen d xs h.1⟩

/-- **C100**: arms with a `LinearRegressionParameter` are consistent on any part of the units. -/
theorem LinReg.C100_consistent {Ω V : Type} [MeasurableSpace Ω] {P : Measure Ω} [IsProbabilityMeasure P] {k : ℕ} {cfg : SSConfig (Cell ℝ) ℝ} (rng : Rng V ℝ)
    {U : ℕ → Ω → Obs ℝ} {b : Fin (k + 1) → ℝ} {M : Matrix (Fin (k + 1)) (Fin (k + 1)) ℝ} (hU : Iid P fun i ω => (U i ω).point k) (hcov : ∀ i ω, (U i ω).z.length = k)
    (h2 : ∀ j, MemLp (fun ω => regressor ((U 0 ω).point k) j) 2 P) (hy : ∀ j, MemLp (fun ω => regressor ((U 0 ω).point k) j * (U 0 ω).yv) 4 P)
    (hM : M * designMoments P (fun ω => (U 0 ω).point k) = 1) (hb : LeastSquares P (fun ω => (U 0 ω).point k) b) {m : ℕ} (hm : 2 ≤ m) {δ : ℝ} (h0 : 0 < δ) (h1 : δ < 1)
    (halg : cfg.alg = .clt ∨ cfg.alg = .chi2) (hstable : cfg.stable = true)
    (ht : ∀ (σ : ℕ → ℕ) ω, ∃ d, cfg.transform d = .ok (Obs.dataset k ((List.range m).map fun i => U (σ i) ω)))
    {s0 : ArmState (LinReg k ℝ) (Cell ℝ) ℝ} (hs : s0.split = none) (hp : s0.numPulled = 0) (hl : 0 < s0.eta.lReg) :
    ConsistentOnParts P k cfg LinReg.ops rng U m δ s0 (b 0) Var[fun ω => regressionScore M ((U 0 ω).point k); P] := by
  intro σ hσ
  have hid : IdentDistrib (fun ω => (U (σ 0) ω).point k) (fun ω => (U 0 ω).point k) P P := hU.ident (σ 0)
  have hm1 : ∀ j, Measurable fun q : (Fin k → ℝ) × ℝ × ℝ => regressor q j := fun j => LinReg.measurable_regressor j
  have hm2 : Measurable fun q : (Fin k → ℝ) × ℝ × ℝ => q.2.2 := measurable_snd.comp measurable_snd
  have hvar : Var[fun ω => regressionScore M ((U (σ 0) ω).point k); P] = Var[fun ω => regressionScore M ((U 0 ω).point k); P] :=
    (hid.comp (LinReg.measurable_score M)).variance_eq
  rw [← hvar]
  refine LinReg.C99_consistent (U := fun i => U (σ i)) rng (hU.part hσ) (fun i ω => hcov _ ω) (fun j => ?_) (fun j => ?_) ?_ ?_ hm h0 h1 halg hstable (fun ω n => ?_) hs hp hl
  · exact (hid.comp (hm1 j)).memLp_iff.2 (h2 j)
  · exact (hid.comp ((hm1 j).mul hm2)).memLp_iff.2 (hy j)
  · rw [← hM]
    congr 1
    ext i j
    exact (hid.comp ((hm1 i).mul (hm1 j))).integral_eq
  · intro j
    rw [← hb j]
    exact (hid.comp (u := fun q => regressor q j * (q.2.2 - ∑ l, b l * regressor q l)) (by fun_prop)).integral_eq
  · exact ht (fun i => σ (blockStart (fun _ => m) n + i)) ω

/-- **C100**: arms with an AIPW parameter are consistent on any part of the units. -/
theorem AIPW.C100_consistent {Ω V M Q : Type} [MeasurableSpace Ω] {P : Measure Ω} [IsProbabilityMeasure P] {k : ℕ} {cfg : SSConfig (Cell ℝ) ℝ} (rng : Rng V ℝ)
    {R : Predictor M ℝ} {C : Predictor Q ℝ} {SR : M → Prop} {SC : Q → Prop} {lam κ : ℝ} {μ : ℤ}
    {U : ℕ → Ω → Obs ℝ} {b θ : Fin (k + 1) → ℝ} (hk : 0 < k) (hU : Iid P fun i ω => (U i ω).point k) (hcov : ∀ i ω, (U i ω).z.length = k)
    (hbin : ∀ i ω, (U i ω).Binary) (hz : ∀ j, MemLp (fun ω => ((U 0 ω).point k).1 j) 8 P) (hy : MemLp (fun ω => (U 0 ω).yv) 8 P)
    (hnd : Nondegenerate P fun ω => regressor ((U 0 ω).point k)) (hb : LeastSquares P (fun ω => (U 0 ω).point k) b)
    (hθ : LogisticRegression P (fun ω => (U 0 ω).point k) θ) (hR : R.IsRidge SR lam) (hl : 0 < lam) (hC : C.IsLogistic SC) (hμ : 1 ≤ μ)
    (h1 : 1 / 10 ^ 15 ≤ κ) (h2 : κ ≤ 1 / 2) {m : ℕ} (hm : 2 ≤ m) {δ : ℝ} (hδ0 : 0 < δ) (hδ1 : δ < 1)
    (halg : cfg.alg = .clt ∨ cfg.alg = .chi2) (hstable : cfg.stable = true)
    (ht : ∀ (σ : ℕ → ℕ) ω, ∃ d, cfg.transform d = .ok (Obs.dataset k ((List.range m).map fun i => U (σ i) ω)))
    {s0 : ArmState (AIPW M Q ℝ) (Cell ℝ) ℝ} (hs : s0.split = none) (hp : s0.numPulled = 0) (hreg : AIPW.Regular k SR SC μ κ s0.eta) :
    ConsistentOnParts P k cfg (AIPW.ops R C) rng U m δ s0
      (∫ ω, aipwScore (fun x z => linearValue b (x :: z)) (fun z => min (max (logisticValue θ z) κ) (1 - κ)) (U 0 ω) ∂P)
      Var[fun ω => aipwScore (fun x z => linearValue b (x :: z)) (fun z => min (max (logisticValue θ z) κ) (1 - κ)) (U 0 ω); P] := by
  intro σ hσ
  have hid : IdentDistrib (fun ω => (U (σ 0) ω).point k) (fun ω => (U 0 ω).point k) P P := hU.ident (σ 0)
  have hm1 : ∀ j, Measurable fun q : (Fin k → ℝ) × ℝ × ℝ => regressor q j := fun j => LinReg.measurable_regressor j
  have hm2 : Measurable fun q : (Fin k → ℝ) × ℝ × ℝ => q.2.2 := measurable_snd.comp measurable_snd
  have hm3 : ∀ j, Measurable fun q : (Fin k → ℝ) × ℝ × ℝ => q.1 j := fun j => by fun_prop
  have key := AIPW.C99_consistent (U := fun i => U (σ i)) (cfg := cfg) (b := b) (θ := θ) (m := m) (δ := δ) (s0 := s0) rng hk (hU.part hσ) (fun i ω => hcov _ ω) (fun i ω => hbin _ ω)
    (fun j => (hid.comp (hm3 j)).memLp_iff.2 (hz j)) ((hid.comp hm2).memLp_iff.2 hy)
    (fun v hv => hnd v (hid.ae_snd (p := fun q => ∑ j, v j * regressor q j = 0) (measurableSet_eq_fun (by fun_prop) measurable_const) hv))
    (fun j => (hid.comp (u := fun q => regressor q j * (q.2.2 - ∑ l, b l * regressor q l)) (by fun_prop)).integral_eq.trans (hb j))
    (fun t h => by
      have h1 := fun q : Fin (k + 1) → ℝ => (hid.comp (measurable_unitLoss q)).integral_eq
      have h2 := hθ t h
      simp only [crossEntropy_sigmoid] at h2 ⊢
      simp only [Function.comp_def] at h1
      rw [h1, h1]
      exact h2) hR hl hC hμ h1 h2 hm hδ0 hδ1 halg hstable (fun ω n => ht (fun i => σ (blockStart (fun _ => m) n + i)) ω) hs hp hreg
  simp only [aipwScore_point] at key ⊢
  have e1 := (hid.comp (measurable_aipwPoint κ b θ)).integral_eq
  have e2 := (hid.comp (measurable_aipwPoint κ b θ)).variance_eq
  simp only [Function.comp_def] at e1 e2
  rw [e1, e2] at key
  exact key

/-! ## Non-vacuity -/

namespace EndDemo

theorem consistentOnParts {V : Type} (rng : Rng V ℝ) (a : Bool) : ConsistentOnParts (draws (threePoint 1)) 1 (armCfg a) (LinReg.ops (k := 1)) rng (fun i ω => view a (unit (coord i ω))) 3 (1 / 20)
    (init (LinReg.new (1 / 10))) (coeff a 0) (value a) := by
  rw [← variance_eq]
  have hreg : ∀ j, Measurable fun c => regressor ((view a (unit c)).point 1) j := fun j => (LinReg.measurable_regressor j).comp (measurable_view a)
  have hyv : Measurable fun c => (view a (unit c)).yv := (measurable_snd.comp measurable_snd).comp (measurable_view a)
  refine LinReg.C100_consistent rng (iid a) (fun i ω => (shows a).covariates _ rfl) (fun j => ?_) (fun j => ?_) (inverse a) (leastSquares a) (by norm_num) (by norm_num) (by norm_num)
    (Or.inl rfl) rfl (fun σ ω => ?_) rfl rfl (by show (0 : ℝ) < 1 / 10; norm_num)
  · exact LinReg.demo_memLp _ (hreg j) (C := 1) (fun c hc => abs_le.1 (bounds a c hc j).1) 2
  · exact LinReg.demo_memLp (fun c => regressor ((view a (unit c)).point 1) j * (view a (unit c)).yv) ((hreg j).mul hyv) (C := 5) (fun c hc => abs_le.1 (by
      rw [abs_mul]
      have := mul_le_mul (bounds a c hc j).1 (bounds a c hc j).2 (abs_nonneg _) zero_le_one
      linarith)) 4
  · simpa [blockStart] using (shows a).blocks (u := fun i => unit (coord (σ i) ω)) (fun i => rfl) 3 0

/-- non-vacuity of `C100_ends`, `LinReg.C100_consistent` and `LinReg.C100_never_nan`: two arms adjust for different covariates; without a sample limit successive elimination ends almost surely -/
example {V : Type} (rng : Rng V ℝ) (v0 : V) :
    ∀ᵐ ω ∂draws (threePoint 1), NeverRaises (Bandit.seRun (env V) (Bandit.ssFamily armCfg (fun _ => LinReg.ops) (Tape.rng rng) cost) banditCfg none) (heap, ⟨fun i => unit (coord i ω), 0, v0⟩) ∧
      Ends (Bandit.seRun (env V) (Bandit.ssFamily armCfg (fun _ => LinReg.ops) (Tape.rng rng) cost) banditCfg none) (heap, ⟨fun i => unit (coord i ω), 0, v0⟩) := by
  have hlev : Bandit.level banditCfg = .fin (1 / 20) := by
    norm_num [Bandit.level, banditCfg, Fl.div]
  refine Bandit.C100_ends (env := env V) (cost := cost) (heap := heap) (U := fun i (ω : ℕ → ℝ) => unit (coord i ω)) rfl (by simp [banditCfg]) (by simp [banditCfg]) hlev rfl rfl (fun _ _ => rfl)
    (fun _ => rfl) (fun a _ => shows a) (fun a _ => ?_) (fun a _ => consistentOnParts rng a)
    (fun a _ => LinReg.C100_never_nan rng rfl (by simp [banditCfg]) (by norm_num) (by norm_num)) (fun a _ b _ hab => ?_) v0
  · cases a <;> norm_num [cost]
  · cases a <;> cases b <;> first | exact absurd rfl hab | norm_num [cost, value]

open AIPW in
/-- non-vacuity of `AIPW.C100_consistent` and `AIPW.C100_never_nan` -/
example {V : Type} (rng : Rng V ℝ) : (∃ θ v, ConsistentOnParts (draws fourPoint) 1 (LinReg.demoCfg .clt) (AIPW.ops (idealRidge 1) idealLogistic) rng
    (fun i ω => fourUnit (fun x z => 1 + x * z) (coord i ω)) 3 (1 / 20) (init fourNew) θ v) ∧
    NeverNan 1 (LinReg.demoCfg .clt) (AIPW.ops (idealRidge 1) idealLogistic) rng 3 (1 / 20) := by
  refine ⟨?_, AIPW.C100_never_nan _ _ rng rfl (by norm_num) (by norm_num) (by norm_num)⟩
  have hm : Measurable fun q : ℝ × ℝ => (fun x z => 1 + x * z) q.1 q.2 := by fun_prop
  have hV : Measurable fun ω => (fourUnit (fun x z => 1 + x * z) (coord 0 ω)).point 1 := (four_measurable hm).comp (measurable_coord 0)
  have hnd := four_nondegenerate fun x z => 1 + x * z
  have hnd1 := (four_notSeparable fun x z => 1 + x * z).nondegenerate
  have hbin0 : ∀ᵐ ω ∂draws fourPoint, ((fourUnit (fun x z => 1 + x * z) (coord 0 ω)).point 1).2.1 = 0 ∨ ((fourUnit (fun x z => 1 + x * z) (coord 0 ω)).point 1).2.1 = 1 :=
    Eventually.of_forall fun ω => four_binary (fun x z => 1 + x * z) _
  obtain ⟨b, hb⟩ := Nondegenerate.exists_leastSquares hnd (regressor_memLp hV.aemeasurable hbin0 fun j => four_z (fun x z => 1 + x * z) 2 j) (four_y (m := fun x z => 1 + x * z) hm 2)
  have hθ := logistic_correct hV hbin0 (fun j => (four_z (fun x z => 1 + x * z) 1 j).integrable le_rfl) hnd1 (four_propensity hm)
  exact ⟨_, _, AIPW.C100_consistent rng (SR := fun _ => True) (SC := fun _ => True) (by norm_num) (four_iid hm) (fun _ _ => rfl) (fun i ω => four_binary _ _)
    (fun j => four_z (fun x z => 1 + x * z) 8 j) (four_y hm 8) hnd hb hθ (idealRidge_isRidge (alpha := 1) (by norm_num)) (by norm_num) idealLogistic_isLogistic
    (by norm_num) (by norm_num) (by norm_num) (by norm_num) (by norm_num) (by norm_num) (Or.inl rfl) rfl (fun σ ω => ⟨_, rfl⟩) rfl rfl four_regular⟩

end EndDemo
end Verif
