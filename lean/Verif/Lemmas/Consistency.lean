import Verif.Lemmas.Coverage4

/-!
# Consistency of the estimates and intervals of sample-splitting arms
-/

set_option linter.unusedSectionVars false

namespace Verif
open MeasureTheory ProbabilityTheory Filter Topology

/-! ### means of lists -/

theorem pmean_le_of {ι : Type} (l : List ι) (f g : ι → ℝ) (h : ∀ i ∈ l, f i ≤ g i) : pmean (l.map f) ≤ pmean (l.map g) := by
  unfold pmean
  simp only [List.length_map]
  exact div_le_div_of_nonneg_right (List.sum_le_sum h) (Nat.cast_nonneg _)

theorem sum_map_add' {ι : Type} (l : List ι) (f g : ι → ℝ) : (l.map fun i => f i + g i).sum = (l.map f).sum + (l.map g).sum := by
  induction l with
  | nil => simp
  | cons a l ih => simp only [List.map_cons, List.sum_cons, ih]; ring

theorem sum_map_mul' {ι : Type} (l : List ι) (c : ℝ) (f : ι → ℝ) : (l.map fun i => c * f i).sum = c * (l.map f).sum := by
  induction l with
  | nil => simp
  | cons a l ih => simp only [List.map_cons, List.sum_cons, ih]; ring

theorem pmean_add' {ι : Type} (l : List ι) (f g : ι → ℝ) : pmean (l.map fun i => f i + g i) = pmean (l.map f) + pmean (l.map g) := by
  unfold pmean
  rw [sum_map_add']
  simp only [List.length_map]
  ring

theorem pmean_mul' {ι : Type} (l : List ι) (c : ℝ) (f : ι → ℝ) : pmean (l.map fun i => c * f i) = c * pmean (l.map f) := by
  unfold pmean
  rw [sum_map_mul']
  simp only [List.length_map]
  ring

theorem pmean_const' {ι : Type} (l : List ι) (hl : l ≠ []) (c : ℝ) : pmean (l.map fun _ => c) = c := by
  have : (l.length : ℝ) ≠ 0 := by
    have := List.length_pos_iff.mpr hl
    positivity
  unfold pmean
  simp only [List.map_const', List.sum_replicate, List.length_replicate, nsmul_eq_mul]
  field_simp

theorem pmean_nonneg {ι : Type} (l : List ι) (f : ι → ℝ) (h : ∀ i ∈ l, 0 ≤ f i) : 0 ≤ pmean (l.map f) := by
  unfold pmean
  exact div_nonneg (List.sum_nonneg (by simpa using h)) (Nat.cast_nonneg _)

/-- Jensen's inequality for the square -/
theorem sq_pmean_le {ι : Type} (l : List ι) (f : ι → ℝ) : pmean (l.map f) ^ 2 ≤ pmean (l.map fun i => f i ^ 2) := by
  by_cases hl : l = []
  · subst hl; simp [pmean]
  have h := pmean_nonneg l (fun i => (f i - pmean (l.map f)) ^ 2) fun i _ => sq_nonneg _
  have e : (fun i => (f i - pmean (l.map f)) ^ 2) = fun i => f i ^ 2 + ((-2 * pmean (l.map f)) * f i + pmean (l.map f) ^ 2) := by
    funext i; ring
  rw [e, pmean_add', pmean_add', pmean_mul', pmean_const' l hl] at h
  linarith

theorem pow4_pmean_le {ι : Type} (l : List ι) (f : ι → ℝ) : pmean (l.map f) ^ 4 ≤ pmean (l.map fun i => f i ^ 4) := by
  have h1 := sq_pmean_le l f
  have h2 := sq_pmean_le l fun i => f i ^ 2
  have h3 : (pmean (l.map f) ^ 2) ^ 2 ≤ pmean (l.map fun i => f i ^ 2) ^ 2 := pow_le_pow_left₀ (sq_nonneg _) h1 2
  simp only [← pow_mul] at h2 h3
  exact h3.trans h2

/-- close lists are images of one list of pairs -/
theorem close_pairs {p : ℕ} (hp : Even p) {ε : ℝ} {xs ys : List ℝ} (h : Close p ε xs ys) (hy : ys ≠ []) :
    ∃ l : List (ℝ × ℝ), l ≠ [] ∧ xs = l.map Prod.fst ∧ ys = l.map Prod.snd ∧ pmean (l.map fun q => (q.1 - q.2) ^ p) ≤ ε ^ p := by
  obtain ⟨h1, h2, h3⟩ := h
  have hlen : (xs.zip ys).length = xs.length := by simp [h1]
  have hne : xs.zip ys ≠ [] := by
    intro h
    rw [h] at hlen
    exact hy (List.length_eq_zero_iff.mp (by rw [← h1, ← hlen]; rfl))
  refine ⟨xs.zip ys, hne, ?_, ?_, ?_⟩
  · rw [List.map_fst_zip h1.le]
  · rw [List.map_snd_zip h1.ge]
  · simp only [hp.pow_abs] at h3
    unfold pmean
    have : (0 : ℝ) < xs.length := by
      have := List.length_pos_iff.mpr hne
      rw [hlen] at this
      exact_mod_cast this
    rw [List.length_map, hlen, div_le_iff₀ this]
    linarith

/-- uniformly close observations are close in every mean -/
theorem close_of_sup (p : ℕ) {ε : ℝ} (hε : 0 ≤ ε) {xs ys : List ℝ} (h1 : xs.length = ys.length)
    (h2 : ∀ (i : ℕ) (x y : ℝ), xs[i]? = some x → ys[i]? = some y → |x - y| ≤ ε) : Close p ε xs ys := by
  refine ⟨h1, hε, ?_⟩
  have hlen : (xs.zip ys).length = xs.length := by simp [h1]
  calc ((xs.zip ys).map fun q => |q.1 - q.2| ^ p).sum ≤ ((xs.zip ys).map fun _ => ε ^ p).sum := by
        refine List.sum_le_sum fun q hq => ?_
        obtain ⟨i, hi⟩ := List.mem_iff_getElem?.mp hq
        rw [List.getElem?_zip_eq_some] at hi
        exact pow_le_pow_left₀ (abs_nonneg _) (h2 i _ _ hi.1 hi.2) p
    _ = xs.length * ε ^ p := by
        simp only [List.map_const', List.sum_replicate, hlen, nsmul_eq_mul]

theorem Close.mono {p : ℕ} {ε η : ℝ} {xs ys : List ℝ} (h : Close p ε xs ys) (hη : ε ≤ η) : Close p η xs ys :=
  ⟨h.1, h.2.1.trans hη, h.2.2.trans (mul_le_mul_of_nonneg_left (pow_le_pow_left₀ h.2.1 hη p) (Nat.cast_nonneg _))⟩

/-- closeness in the fourth mean is stronger than in the second -/
theorem Close.two {ε : ℝ} {xs ys : List ℝ} (h : Close 4 ε xs ys) : Close 2 ε xs ys := by
  refine ⟨h.1, h.2.1, ?_⟩
  by_cases hy : ys = []
  · simp [hy, h.1]
  obtain ⟨l, hne, rfl, rfl, hl⟩ := close_pairs (by decide) h hy
  have h1 := sq_pmean_le l fun q => (q.1 - q.2) ^ 2
  simp only [← pow_mul] at h1
  have h2 : pmean (l.map fun q => (q.1 - q.2) ^ 2) ≤ ε ^ 2 := by
    have h3 : pmean (l.map fun q => (q.1 - q.2) ^ 2) ^ 2 ≤ (ε ^ 2) ^ 2 := by
      rw [← pow_mul]
      exact h1.trans hl
    exact le_of_sq_le_sq h3 (sq_nonneg _)
  have hpos : (0 : ℝ) < l.length := by exact_mod_cast List.length_pos_iff.mpr hne
  unfold pmean at h2
  rw [List.length_map, div_le_iff₀ hpos] at h2
  rw [List.zip_map', List.map_map, List.length_map]
  simp only [sq_abs, Function.comp_def]
  linarith

/-- the mean deviation to the fourth -/
noncomputable def dev4 (xs : List ℝ) : ℝ := pmean (xs.map fun x => (x - pmean xs) ^ 4)

theorem pvarSq_eq (xs : List ℝ) (hx : xs ≠ []) : pvar (sqDevs xs) = dev4 xs - pvar xs ^ 2 := by
  have h1 : pmean (sqDevs xs) = pvar xs := rfl
  unfold pvar
  rw [h1]
  unfold sqDevs dev4
  rw [List.map_map]
  have e : ((fun x => (x - pvar xs) ^ 2) ∘ fun x => (x - pmean xs) ^ 2) =
      fun x => (x - pmean xs) ^ 4 + ((-2 * pvar xs) * (x - pmean xs) ^ 2 + pvar xs ^ 2) := by
    funext x; simp only [Function.comp_apply]; ring
  rw [e, pmean_add', pmean_add', pmean_mul', pmean_const' _ hx]
  have : pmean (xs.map fun x => (x - pmean xs) ^ 2) = pvar xs := rfl
  rw [this]
  ring

theorem pmean_close {ε : ℝ} {xs ys : List ℝ} (h : Close 2 ε xs ys) (hy : ys ≠ []) : |pmean xs - pmean ys| ≤ ε := by
  have h0 := h.2.1
  obtain ⟨l, hne, rfl, rfl, hl⟩ := close_pairs (by decide) h hy
  have e : pmean (l.map Prod.fst) - pmean (l.map Prod.snd) = pmean (l.map fun p => p.1 - p.2) := by
    have := pmean_add' l (fun p => p.1 - p.2) Prod.snd
    simp only [sub_add_cancel] at this
    rw [show pmean (l.map Prod.fst) = pmean (l.map fun p => p.1) from rfl, this]; ring
  rw [e]
  exact abs_le_of_sq_le_sq ((sq_pmean_le l _).trans hl) h0

theorem pvar_close {ε : ℝ} (hε : 0 < ε) {xs ys : List ℝ} (h : Close 2 ε xs ys) (hy : ys ≠ []) :
    |pvar xs - pvar ys| ≤ ε * (1 + pvar ys) + ε ^ 2 := by
  obtain ⟨l, hne, rfl, rfl, hl⟩ := close_pairs (by decide) h hy
  set a := pmean (l.map Prod.fst) with ha
  set b := pmean (l.map Prod.snd) with hb
  have e1 : pvar (l.map Prod.fst) = pmean (l.map fun p => (p.1 - a) ^ 2) := by
    unfold pvar; rw [← ha, List.map_map]; rfl
  have e2 : pvar (l.map Prod.snd) = pmean (l.map fun p => (p.2 - b) ^ 2) := by
    unfold pvar; rw [← hb, List.map_map]; rfl
  have eab : a - b = pmean (l.map fun p => p.1 - p.2) := by
    have := pmean_add' l (fun p => p.1 - p.2) Prod.snd
    simp only [sub_add_cancel] at this
    rw [ha, show pmean (l.map Prod.fst) = pmean (l.map fun p => p.1) from rfl, this]; ring
  -- the centred differences
  have hr : pmean (l.map fun p => ((p.1 - a) - (p.2 - b)) ^ 2) ≤ ε ^ 2 := by
    have e : (fun p : ℝ × ℝ => ((p.1 - a) - (p.2 - b)) ^ 2) = fun p => (p.1 - p.2) ^ 2 + ((-2 * (a - b)) * (p.1 - p.2) + (a - b) ^ 2) := by
      funext p; ring
    rw [e, pmean_add', pmean_add', pmean_mul', pmean_const' l hne, ← eab]
    nlinarith [sq_nonneg (a - b)]
  have key : ∀ p : ℝ × ℝ, |(p.1 - a) ^ 2 - (p.2 - b) ^ 2| ≤
      ε * (p.2 - b) ^ 2 + (1 / ε * ((p.1 - a) - (p.2 - b)) ^ 2 + ((p.1 - a) - (p.2 - b)) ^ 2) := by
    intro p
    set r := (p.1 - a) - (p.2 - b) with hr
    set y := p.2 - b
    have hx : p.1 - a = y + r := by rw [hr]; ring
    rw [hx, show (y + r) ^ 2 - y ^ 2 = 2 * y * r + r ^ 2 by ring]
    have h4 : |2 * y * r| ≤ ε * y ^ 2 + 1 / ε * r ^ 2 := by
      have h5 : 0 ≤ ε * (|y| - |r| / ε) ^ 2 := by positivity
      have h6 : ε * (|y| - |r| / ε) ^ 2 = ε * |y| ^ 2 - 2 * |y| * |r| + 1 / ε * |r| ^ 2 := by field_simp; ring
      rw [abs_mul, abs_mul, abs_two]
      rw [h6, sq_abs, sq_abs] at h5
      linarith
    calc |2 * y * r + r ^ 2| ≤ |2 * y * r| + |r ^ 2| := abs_add_le _ _
      _ = |2 * y * r| + r ^ 2 := by rw [abs_of_nonneg (sq_nonneg r)]
      _ ≤ _ := by linarith
  have hB : pmean (l.map fun p => ε * (p.2 - b) ^ 2 + (1 / ε * ((p.1 - a) - (p.2 - b)) ^ 2 + ((p.1 - a) - (p.2 - b)) ^ 2)) ≤
      ε * (1 + pvar (l.map Prod.snd)) + ε ^ 2 := by
    rw [pmean_add', pmean_mul', pmean_add', pmean_mul', e2]
    have : 1 / ε * pmean (l.map fun p => ((p.1 - a) - (p.2 - b)) ^ 2) ≤ ε := by
      rw [one_div, inv_mul_le_iff₀ hε]
      linarith [hr]
    linarith
  have hD : pvar (l.map Prod.fst) - pvar (l.map Prod.snd) = pmean (l.map fun p => (p.1 - a) ^ 2 - (p.2 - b) ^ 2) := by
    have := pmean_add' l (fun p => (p.1 - a) ^ 2 - (p.2 - b) ^ 2) (fun p => (p.2 - b) ^ 2)
    simp only [sub_add_cancel] at this
    rw [e1, e2, this]; ring
  refine le_trans ?_ hB
  rw [hD, abs_le]
  constructor
  · rw [neg_eq_neg_one_mul, ← pmean_mul']
    exact pmean_le_of l _ _ fun p hp => by linarith [(abs_le.mp (key p)).1]
  · exact pmean_le_of l _ _ fun p hp => (abs_le.mp (key p)).2

theorem dev4_close {ε : ℝ} {xs ys : List ℝ} (h : Close 4 ε xs ys) (hy : ys ≠ []) :
    dev4 xs ≤ 8 * dev4 ys + 128 * ε ^ 4 := by
  obtain ⟨l, hne, rfl, rfl, hl⟩ := close_pairs (by decide) h hy
  set a := pmean (l.map Prod.fst) with ha
  set b := pmean (l.map Prod.snd) with hb
  have e1 : dev4 (l.map Prod.fst) = pmean (l.map fun p => (p.1 - a) ^ 4) := by
    unfold dev4; rw [← ha, List.map_map]; rfl
  have e2 : dev4 (l.map Prod.snd) = pmean (l.map fun p => (p.2 - b) ^ 4) := by
    unfold dev4; rw [← hb, List.map_map]; rfl
  have eab : a - b = pmean (l.map fun p => p.1 - p.2) := by
    have := pmean_add' l (fun p => p.1 - p.2) Prod.snd
    simp only [sub_add_cancel] at this
    rw [ha, show pmean (l.map Prod.fst) = pmean (l.map fun p => p.1) from rfl, this]; ring
  have hab : (a - b) ^ 4 ≤ ε ^ 4 := by
    rw [eab]
    exact (pow4_pmean_le l _).trans hl
  have pow4 : ∀ y r : ℝ, (y + r) ^ 4 ≤ 8 * (y ^ 4 + r ^ 4) := by
    intro y r
    have a1 : (y + r) ^ 2 ≤ 2 * (y ^ 2 + r ^ 2) := by nlinarith [sq_nonneg (y - r)]
    have a2 : ((y + r) ^ 2) ^ 2 ≤ (2 * (y ^ 2 + r ^ 2)) ^ 2 := pow_le_pow_left₀ (sq_nonneg _) a1 2
    nlinarith [sq_nonneg (y ^ 2 - r ^ 2)]
  have key : ∀ p : ℝ × ℝ, (p.1 - a) ^ 4 ≤ 8 * (p.2 - b) ^ 4 + (64 * (p.1 - p.2) ^ 4 + 64 * (a - b) ^ 4) := by
    intro p
    have h1 := pow4 (p.2 - b) ((p.1 - p.2) + -(a - b))
    have h2 := pow4 (p.1 - p.2) (-(a - b))
    rw [show p.2 - b + (p.1 - p.2 + -(a - b)) = p.1 - a by ring] at h1
    rw [Even.neg_pow (by decide)] at h2
    linarith
  rw [e1, e2]
  refine (pmean_le_of l _ _ fun p _ => key p).trans ?_
  rw [pmean_add', pmean_mul', pmean_add', pmean_mul', pmean_const' l hne]
  linarith

/-! ### Gaussian quantiles -/

/-- quantiles of the standard normal distribution at levels between `p` and `1 - p` -/
theorem abs_quantile_le {p q : ℝ} (hp : 0 < p) (h1 : p ≤ q) (h2 : q ≤ 1 - p) :
    |quantile (gaussianReal 0 1) q| ≤ √(2 * Real.log (1 / p)) := by
  set γ := gaussianReal 0 1
  set t := √(2 * Real.log (1 / p)) with ht
  have hp1 : p ≤ 1 := by linarith
  have hlog : 0 ≤ Real.log (1 / p) := Real.log_nonneg (by rw [le_div_iff₀ hp]; linarith)
  have htt : t ^ 2 = 2 * Real.log (1 / p) := Real.sq_sqrt (by linarith)
  have hexp : Real.exp (-t ^ 2 / (2 * ((1 : NNReal) : ℝ))) = p := by
    rw [htt, NNReal.coe_one]
    rw [show -(2 * Real.log (1 / p)) / (2 * 1) = -Real.log (1 / p) by ring, Real.exp_neg, Real.exp_log (by positivity)]
    simp
  have up : γ.real {x | t ≤ x} ≤ p := by
    have := (gaussian_subG 1).measure_ge_le (Real.sqrt_nonneg _ : 0 ≤ t)
    rw [hexp] at this
    exact this
  have mem : t ∈ {x | q ≤ cdf γ x} := by
    show q ≤ cdf γ t
    rw [cdf_eq_real]
    have hc : γ.real (Set.Iic t)ᶜ ≤ p := (measureReal_mono (by intro x hx; simp at hx; exact hx.le)).trans up
    rw [probReal_compl_eq_one_sub measurableSet_Iic] at hc
    linarith
  have low : ∀ x ∈ {x | q ≤ cdf γ x}, -t ≤ x := by
    intro x hx
    by_contra hlt
    push Not at hlt
    have hx0 : 0 ≤ -x := by linarith [Real.sqrt_nonneg (2 * Real.log (1 / p))]
    have hd := (gaussian_subG 1).neg.measure_ge_le hx0
    have e : cdf γ x = γ.real {ω | -x ≤ (-id) ω} := by
      rw [cdf_eq_real]
      congr 1
      ext ω
      simp only [Set.mem_Iic, Pi.neg_apply, id_eq, Set.mem_ofPred_eq]
      constructor <;> intro h <;> linarith
    have h3 : q ≤ cdf γ x := hx
    rw [e] at h3
    have h4 : Real.exp (-(-x) ^ 2 / (2 * ((1 : NNReal) : ℝ))) < p := by
      rw [← hexp]
      apply Real.exp_lt_exp.mpr
      have : t ^ 2 < (-x) ^ 2 := pow_lt_pow_left₀ (by linarith) (Real.sqrt_nonneg _) two_ne_zero
      simp only [NNReal.coe_one]
      linarith
    linarith
  rw [abs_le]
  constructor
  · exact le_csInf ⟨t, mem⟩ low
  · exact csInf_le ⟨-t, low⟩ mem

end Verif

namespace Verif.Arm
open MeasureTheory ProbabilityTheory Filter Topology
variable {E β W : Type}

/-- the estimates of a finished update -/
theorem est_evaluated {cfg : SSConfig β ℝ} {ops : EtaOps E β ℝ} (hrep : ScoreRepeatable ops) {rng : Rng W ℝ}
    {d : ExpData β} {δ : Fl ℝ} {s s' : ArmState E β ℝ} {w w' : W} {lo hi : Fl ℝ}
    (h : ssUpdate cfg ops realLib rng d δ (s, w) = (.ok (lo, hi), s', w')) {xs : List ℝ} (hx : EvaluatedOn ops s' xs) :
    xs ≠ [] ∧ s'.varEst = some (.fin (pvar xs)) ∧ s'.ate = some (.fin (pmean xs)) := by
  obtain ⟨-, s1, hn, -, hest⟩ := ssUpdate_inv h
  clear h
  obtain ⟨l, f1, x1, x2, x3, x4, x5⟩ := hx
  cases hest with
  | few l f0 e1 a b c d => rw [d] at x4; cases x4
  | enough l' f0 e1 f1' sc1 e2 sc2 e3 lo hi e4 a b c d e f g hnan hi' =>
    simp only at x1 x5
    rw [a, Option.some.injEq] at x1
    subst x1
    rw [e, Option.some.injEq] at x2
    subst x2
    have e12 := score_again hrep f g
    subst e12
    obtain ⟨ys, hy, rfl, hv⟩ := scores_finite hnan
    have hlast : (ops.score e4 f1').1 = .ok (ys.map Fl.fin) := by
      have h3 := hrep e2 f1'
      rw [g] at h3
      cases hi' with
      | chi2 h => exact h3
      | burnIn ew h => exact h3
      | finite ew h => exact h3
      | clt sc3 e5 _ hsc =>
        have e13 := score_again hrep g hsc
        subst e13
        have := hrep e3 f1'
        rw [hsc] at this
        exact this
    rw [hlast, Except.ok.injEq] at x5
    have hxy : ys = xs := List.map_injective_iff.mpr (fun a b h => by injection h) x5
    subst hxy
    exact ⟨hy, by rw [hv], by rw [mean_fin ys hy]⟩

end Verif.Arm
