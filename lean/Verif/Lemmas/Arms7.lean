import Verif.Lemmas.Arms6

/-!
# Shapes of the CLT and finite-sample intervals
-/

set_option linter.unusedSectionVars false

namespace Verif
namespace Arm
open ExpData ProbabilityTheory Filter Topology
variable {E β W : Type}

theorem div_fin (a b : ℝ) (h : b ≠ 0) : (Fl.fin a).div (.fin b) = .fin (a / b) := by simp only [Fl.div, h, if_false]

theorem mean_fin (xs : List ℝ) (h : xs ≠ []) : Fl.mean (xs.map Fl.fin) = .fin (pmean xs) := Fl.mean_map_fin xs h

theorem sqDev_fin (xs : List ℝ) (m : ℝ) : sqDev (xs.map Fl.fin) (.fin m) = (xs.map fun x => (x - m) ^ 2).map Fl.fin := by
  unfold sqDev
  rw [Fl.map_sqdev]
  simp [pow_two]

theorem var_fin (xs : List ℝ) (h : xs ≠ []) : Fl.var (xs.map Fl.fin) = .fin (pvar xs) := by
  have := sqDev_fin xs (pmean xs)
  unfold sqDev at this
  unfold Fl.var pvar
  rw [mean_fin xs h, this, mean_fin _ (by simpa using h)]

theorem pmean_nonneg (xs : List ℝ) (h : ∀ x ∈ xs, 0 ≤ x) : 0 ≤ pmean xs :=
  div_nonneg (List.sum_nonneg h) (by simp)

theorem pvar_nonneg (xs : List ℝ) : 0 ≤ pvar xs := by
  apply pmean_nonneg
  intro y hy
  obtain ⟨x, _, rfl⟩ := List.mem_map.mp hy
  positivity

/-- one score vector is used throughout an update when scoring is repeatable -/
theorem score_again {ops : EtaOps E β ℝ} (hrep : ScoreRepeatable ops) {e e2 e3 : E} {d : ExpData β} {sc sc'}
    (h1 : ops.score e d = (.ok sc, e2)) (h2 : ops.score e2 d = (.ok sc', e3)) : sc' = sc := by
  have := hrep e d
  rw [h1] at this
  simp only [h2, Except.ok.injEq] at this
  exact this

/-- finite scores behind a successful estimation -/
theorem scores_finite {sc : List (Fl ℝ)} (h : (Fl.mean (sqDev sc (Fl.mean sc))).isNan = false) :
    ∃ xs : List ℝ, xs ≠ [] ∧ sc = xs.map Fl.fin ∧ Fl.mean (sqDev sc (Fl.mean sc)) = .fin (pvar xs) := by
  obtain ⟨xs, h1, h2⟩ := Fl.finite_of_var sc h
  refine ⟨xs, h1, h2, ?_⟩
  rw [h2]
  exact var_fin xs h1

theorem cltCi_eq (xs : List ℝ) (hx : xs ≠ []) (δ : ℝ) (h0 : 0 < δ) (h1 : δ < 1) (k : ℕ) (hk : 0 < k) (n : ℕ) (hn : 0 < n) :
    cltCi realLib (.fin (pvar xs)) (.fin (pmean xs)) (.fin δ) k (xs.map Fl.fin) n =
      (Fl.maxStep (.fin (pvar xs + quantile (gaussianReal 0 1) (δ / k ^ 2 / 2) * cltSe xs n)) (.fin 0),
       .fin (pvar xs + quantile (gaussianReal 0 1) (1 - δ / k ^ 2 / 2) * cltSe xs n)) := by
  have hk1 : (1 : ℝ) ≤ k := by exact_mod_cast hk
  have hk2 : (1 : ℝ) ≤ k ^ 2 := one_le_pow₀ hk1
  have hn' : (0 : ℝ) < n := by exact_mod_cast hn
  have hd : 0 < δ / k ^ 2 := by positivity
  have hd1 : δ / (k : ℝ) ^ 2 < 1 := by
    rw [div_lt_one (by positivity)]; linarith
  unfold cltCi
  dsimp only
  rw [sqDev_fin]
  have hv := var_fin (sqDevs xs) (by simpa [sqDevs] using hx)
  rw [show (xs.map fun x => (x - pmean xs) ^ 2) = sqDevs xs from rfl, hv]
  rw [show (k : ℝ) * k = k ^ 2 from (pow_two _).symm, div_fin _ _ (by positivity : (k : ℝ) ^ 2 ≠ 0),
    div_fin _ _ hn'.ne', div_fin _ _ two_ne_zero]
  have hsq : realLib.sqrt (.fin (pvar (sqDevs xs) / n)) = .fin (cltSe xs n) := by
    have : ¬ pvar (sqDevs xs) / n < 0 := not_lt.mpr (div_nonneg (pvar_nonneg _) hn'.le)
    simp only [realLib, Fl.realSqrt, this, if_false]; rfl
  have hp1 : realLib.normPpf (.fin (δ / k ^ 2 / 2)) = .fin (quantile (gaussianReal 0 1) (δ / k ^ 2 / 2)) := by
    have : 0 < δ / (k : ℝ) ^ 2 / 2 ∧ δ / (k : ℝ) ^ 2 / 2 < 1 := ⟨by positivity, by linarith⟩
    simp only [realLib, Fl.ppf, this, and_self, if_true]
  have hp2 : realLib.normPpf ((Fl.fin 1).sub (.fin (δ / k ^ 2 / 2))) = .fin (quantile (gaussianReal 0 1) (1 - δ / k ^ 2 / 2)) := by
    have : 0 < 1 - δ / (k : ℝ) ^ 2 / 2 ∧ 1 - δ / (k : ℝ) ^ 2 / 2 < 1 := ⟨by linarith, by linarith⟩
    simp only [Fl.sub, Fl.neg, Fl.add, ← sub_eq_add_neg, realLib, Fl.ppf, this, and_self, if_true]
  rw [hsq, hp1, hp2]
  rfl

/-- A successful CLT update, over the reals. -/
theorem clt_shape {cfg : SSConfig β ℝ} (halg : cfg.alg = .clt) {ops : EtaOps E β ℝ} (hrep : ScoreRepeatable ops)
    (hlen : ∀ e d sc e', ops.score e d = (.ok sc, e') → sc.length = d.nUnits)
    {delta : ℝ} (h0 : 0 < delta) (h1 : delta < 1) {s s' : ArmState E β ℝ} {lo hi : Fl ℝ} (hk : 0 < s.numPulled)
    (h : Estimated cfg ops realLib (.fin delta) s lo hi s') :
    (ops.hasEnough s'.eta = .ok false ∧ lo = .fin 0 ∧ hi = .pinf ∧ s'.varEst = some .pinf) ∨
    ∃ (l : List (ExpData β)) (f1 : ExpData β) (e e' : E) (xs : List ℝ), s'.split = some l ∧ l[1]? = some f1 ∧
      ops.hasEnough e = .ok true ∧ ops.score e f1 = (.ok (xs.map Fl.fin), e') ∧ xs.length = f1.nUnits ∧ xs ≠ [] ∧
      s'.varEst = some (.fin (pvar xs)) ∧ s'.ate = some (.fin (pmean xs)) ∧
      lo = Fl.maxStep (.fin (pvar xs + quantile (gaussianReal 0 1) (delta / s.numPulled ^ 2 / 2) * cltSe xs f1.nUnits)) (.fin 0) ∧
      hi = .fin (pvar xs + quantile (gaussianReal 0 1) (1 - delta / s.numPulled ^ 2 / 2) * cltSe xs f1.nUnits) := by
  cases h with
  | few l f0 e1 a b c d => exact Or.inl ⟨d, rfl, rfl, rfl⟩
  | enough l f0 e1 f1 sc1 e2 sc2 e3 lo hi e4 a b c d e f g hn hi' =>
    right
    have e12 := score_again hrep f g
    subst e12
    obtain ⟨xs, hx, rfl, hv⟩ := scores_finite hn
    have hl := hlen _ _ _ _ f
    rw [List.length_map] at hl
    refine ⟨l, f1, e1, e2, xs, a, e, d, f, hl, hx, by rw [hv], by simp only [mean_fin xs hx], ?_⟩
    rw [hv, mean_fin xs hx] at hi'
    cases hi' with
    | chi2 h => rw [halg] at h; cases h
    | clt sc3 e5 _ hsc =>
      have e13 := score_again hrep g hsc
      subst e13
      have hpos : 0 < f1.nUnits := by rw [← hl]; exact List.length_pos_iff.mpr hx
      rw [cltCi_eq xs hx delta h0 h1 s.numPulled hk f1.nUnits hpos]
      exact ⟨rfl, rfl⟩
    | burnIn ew h => rw [halg] at h; cases h
    | finite ew h => rw [halg] at h; cases h

/-- A successful finite-sample update, over the reals. -/
theorem finite_shape {cfg : SSConfig β ℝ} (halg : cfg.alg = .finiteSample) {ops : EtaOps E β ℝ} (hrep : ScoreRepeatable ops)
    {delta : Fl ℝ} {s s' : ArmState E β ℝ} {lo hi : Fl ℝ} (h : Estimated cfg ops realLib delta s lo hi s') :
    (lo = .fin 0 ∧ hi = .pinf ∧ ∃ v, s'.varEst = some v ∧ (v = .pinf ∨ ∃ x, 0 ≤ x ∧ v = .fin x)) ∨
    ∃ (l : List (ExpData β)) (f1 : ExpData β) (e e' : E) (xs : List ℝ) (ew : Fl ℝ), s'.split = some l ∧ l[1]? = some f1 ∧
      ops.score e f1 = (.ok (xs.map Fl.fin), e') ∧ xs ≠ [] ∧
      s'.varEst = some (.fin (pvar xs)) ∧ s'.ate = some (.fin (pmean xs)) ∧
      cfg.tauBound.le (.fin 0) = false ∧ cfg.burnIn.le (.fin 1) = false ∧ cfg.subG.le (.fin 0) = false ∧
      ops.csWidth s'.eta (delta.div (.fin 2)) cfg.etaSubG cfg.rho = .ok (some ew) ∧
      (Fl.fin (f1.nUnits : ℝ)).lt cfg.burnIn = false ∧
      lo = Fl.maxStep ((Fl.fin (pvar xs)).sub (fsWidth realLib cfg.subG cfg.tauBound cfg.burnIn delta f1.nUnits ew)) (.fin 0) ∧
      hi = (Fl.fin (pvar xs)).add (fsWidth realLib cfg.subG cfg.tauBound cfg.burnIn delta f1.nUnits ew) := by
  cases h with
  | few l f0 e1 a b c d => exact Or.inl ⟨rfl, rfl, _, rfl, Or.inl rfl⟩
  | enough l f0 e1 f1 sc1 e2 sc2 e3 lo hi e4 a b c d e f g hn hi' =>
    have e12 := score_again hrep f g
    subst e12
    obtain ⟨xs, hx, rfl, hv⟩ := scores_finite hn
    rw [hv, mean_fin xs hx] at hi'
    cases hi' with
    | chi2 h => rw [halg] at h; cases h
    | clt sc3 e5 h => rw [halg] at h; cases h
    | burnIn ew h => exact Or.inl ⟨rfl, rfl, _, rfl, Or.inr ⟨_, pvar_nonneg xs, hv⟩⟩
    | finite ew _ p1 p2 p3 p4 p5 =>
      right
      exact ⟨l, f1, e1, e2, xs, ew, a, e, f, hx, by rw [hv], by simp only [mean_fin xs hx], p1, p2, p3, p4, p5, rfl, rfl⟩

end Arm
end Verif
