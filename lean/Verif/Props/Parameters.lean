import Verif.Lemmas.Parameters2

/-!
# Properties of the AIPW nuisance parameter (C48 - C50, C57)
-/

set_option linter.unusedSectionVars false
set_option linter.unusedSimpArgs false

namespace Verif
open Param

namespace AIPW
variable {M P α : Type} [Field α] [LinearOrder α] [IsStrictOrderedRing α]

/-! ## C48 -/

/-- The parameter after a history of fits and resets. -/
abbrev after (R : Predictor M α) (C : Predictor P α) (h : List (EtaEvent α)) (s : AIPW M P α) : AIPW M P α :=
  runEvents (fit R C) (reset R C) h s

theorem after_config (R : Predictor M α) (C : Predictor P α) (h : List (EtaEvent α)) (s : AIPW M P α) :
    (after R C h s).covDim = s.covDim ∧ (after R C h s).minUnits = s.minUnits ∧ (after R C h s).minOverlap = s.minOverlap := by
  induction h generalizing s with
  | nil => exact ⟨rfl, rfl, rfl⟩
  | cons e h ih =>
    cases e with
    | fit c us =>
      obtain ⟨h1, h2, h3⟩ := ih (fit R C (Obs.dataset c us) s).2
      obtain ⟨g1, g2, g3⟩ := fit_config R C c us s
      exact ⟨h1.trans g1, h2.trans g2, h3.trans g3⟩
    | reset => exact ih (reset R C s)

theorem after_append (R : Predictor M α) (C : Predictor P α) (h h' : List (EtaEvent α)) (s : AIPW M P α) :
    after R C (h ++ h') s = after R C h' (after R C h s) := by
  induction h generalizing s with
  | nil => rfl
  | cons e h ih => cases e <;> exact ih _

/-- **C48**: after any history of fits on datasets with binary exposure and resets, `has_enough_samples()`
holds iff, since the last reset, some fit on a dataset with the right number of features, at least
`min_units` treated and at least `min_units` control units has completed. -/
theorem C48_ready_iff (R : Predictor M α) (C : Predictor P α) (dim : Nat) (m : M) (p : P) (minUnits : Int) (mo : α)
    (h : List (EtaEvent α)) (hbin : ∀ c us, EtaEvent.fit c us ∈ h → ∀ u ∈ us, u.Binary) :
    (after R C h (new dim m p minUnits mo)).hasBeenFit = true ↔
      ∃ pre us post, h = pre ++ .fit dim us :: post ∧ .reset ∉ post ∧
        minUnits ≤ Obs.treated us ∧ minUnits ≤ Obs.control us ∧
        (fit R C (Obs.dataset dim us) (after R C pre (new dim m p minUnits mo))).1 = .ok () := by
  induction h using List.reverseRecOn with
  | nil => simp [runEvents, new]
  | append_singleton h e ih =>
    specialize ih fun c us hm => hbin c us (List.mem_append_left _ hm)
    rw [after_append]
    obtain ⟨c1, c2, -⟩ := after_config R C h (new dim m p minUnits mo)
    cases e with
    | reset =>
      constructor
      · intro hf; simp [runEvents, reset] at hf
      · rintro ⟨pre, us, post, he, hr, -⟩
        exfalso
        rcases List.eq_nil_or_concat post with rfl | ⟨q, x, rfl⟩
        · have := List.append_inj_right' he rfl
          simp at this
        · rw [List.concat_eq_append, ← List.cons_append, ← List.append_assoc] at he
          have := List.append_inj_right' he rfl
          simp only [List.cons.injEq, and_true] at this
          subst this
          exact hr (by simp)
    | fit c us =>
      have hb : ∀ u ∈ us, u.Binary := hbin c us (by simp)
      show (fit R C (Obs.dataset c us) (after R C h (new dim m p minUnits mo))).2.hasBeenFit = true ↔ _
      have c1' : (after R C h (new dim m p minUnits mo)).covDim = dim := c1
      have c2' : (after R C h (new dim m p minUnits mo)).minUnits = minUnits := c2
      rw [fit_flag, ih, c1', c2', ← Bool.not_eq_true, Obs.tooFew_iff us hb, not_not]
      constructor
      · rintro (⟨pre, us', post, he, hr, h1, h2, h3⟩ | ⟨rfl, ⟨h1, h2⟩, h3⟩)
        · exact ⟨pre, us', post ++ [.fit c us], by rw [he]; simp, by simp [hr], h1, h2, h3⟩
        · exact ⟨h, us, [], rfl, by simp, h1, h2, h3⟩
      · rintro ⟨pre, us', post, he, hr, h1, h2, h3⟩
        rcases List.eq_nil_or_concat post with rfl | ⟨q, x, rfl⟩
        · obtain ⟨e1, e2⟩ := List.append_inj' he rfl
          simp only [List.cons.injEq, EtaEvent.fit.injEq, and_true] at e2
          obtain ⟨rfl, rfl⟩ := e2
          subst e1
          exact Or.inr ⟨rfl, ⟨h1, h2⟩, h3⟩
        · rw [List.concat_eq_append, ← List.cons_append, ← List.append_assoc] at he
          obtain ⟨e1, e2⟩ := List.append_inj' he rfl
          exact Or.inl ⟨pre, us', q, e1, fun hq => hr (by simp [hq]), h1, h2, h3⟩

/-- **C48**: a fit on a dataset (binary exposure) with too few treated or control units returns normally and
changes nothing but `recent_data`; a fit with another number of features raises `ValueError` and changes
nothing; with enough units and predictors that do not raise, the fit completes: the response model has
been fitted on rows `(x, z)` with the responses, the propensity model on rows `z` with the exposures. -/
theorem C48_fit (R : Predictor M α) (C : Predictor P α) (s : AIPW M P α) (us : List (Obs α)) (hb : ∀ u ∈ us, u.Binary) :
    ((Obs.treated us < s.minUnits ∨ Obs.control us < s.minUnits) →
      fit R C (Obs.dataset s.covDim us) s = (.ok (), { s with recent := some (Obs.dataset s.covDim us) })) ∧
    (∀ c, c ≠ s.covDim → fit R C (Obs.dataset c us) s = (.error .valueError, s)) ∧
    (R.Total → C.Total → us ≠ [] → s.minUnits ≤ Obs.treated us → s.minUnits ≤ Obs.control us →
      fit R C (Obs.dataset s.covDim us) s = (.ok (), { s with
        recent := some (Obs.dataset s.covDim us)
        response := (R.fit s.response (us.map fun u => u.xv :: u.zv) (us.map Obs.yv)).2
        propensity := (C.fit s.propensity (us.map Obs.zv) (us.map Obs.xv)).2
        hasBeenFit := true })) := by
  refine ⟨fun h => ?_, fun c hc => ?_, fun hR hC hne h1 h2 => ?_⟩
  · exact fit_few R C us s ((Obs.tooFew_iff us hb _ _).mpr (by omega))
  · exact fit_wrong R C _ s (by rw [Obs.dataset_nFeatures]; exact hc)
  · rw [fit_enough R C us s (by
      rw [← Bool.not_eq_true, Obs.tooFew_iff us hb]; push Not; exact ⟨h1, h2⟩)]
    have hR' := hR s.response (us.map fun u => u.xv :: u.zv) (us.map Obs.yv) (by simpa using hne) (by simp)
    have hC' := hC s.propensity (us.map Obs.zv) (us.map Obs.xv) (by simpa using hne) (by simp)
    have i1 : ((us.map fun u => u.xv :: u.zv).isEmpty || decide ((us.map fun u => u.xv :: u.zv).length ≠ (us.map Obs.yv).length)) = false := by
      simpa using hne
    have i2 : ((us.map Obs.zv).isEmpty || decide ((us.map Obs.zv).length ≠ (us.map Obs.xv).length)) = false := by
      simpa using hne
    unfold Predictor.fitRows
    rw [i1, i2]
    simp only [Bool.false_eq_true, if_false]
    generalize R.fit s.response (us.map fun u => u.xv :: u.zv) (us.map Obs.yv) = r at hR'
    generalize C.fit s.propensity (us.map Obs.zv) (us.map Obs.xv) = q at hC'
    obtain ⟨_, m⟩ := r
    obtain ⟨_, p⟩ := q
    dsimp only at hR' hC'
    subst hR' hC'
    rfl

/-- A predictor for examples: the mean of the labels it was fitted on. -/
def meanPredictor : Predictor (Option ℚ) ℚ where
  fit := fun _ _ ys => (.ok (), some (ys.sum / ys.length))
  predict := fun m _ => m.getD 0
  clone := fun _ => none

/-- Two treated and two control units with one covariate. -/
def demoUnits : List (Obs ℚ) :=
  [⟨[.int 0], .int 1, .flt 3⟩, ⟨[.int 1], .int 0, .flt 1⟩, ⟨[.int 0], .int 0, .flt 2⟩, ⟨[.int 1], .int 1, .flt 5⟩]

theorem meanPredictor_total : meanPredictor.Total := fun _ _ _ _ _ => rfl
theorem meanPredictor_clone : meanPredictor.CloneLaws := ⟨fun _ _ _ => rfl, fun _ => rfl⟩

theorem demoUnits_binary : ∀ u ∈ demoUnits, u.Binary := by
  intro u hu
  simp only [demoUnits, List.mem_cons, List.not_mem_nil, or_false] at hu
  rcases hu with rfl | rfl | rfl | rfl <;> simp [Obs.Binary, Obs.xv, Cell.val]

example : demoUnits ≠ [] ∧ (2 : Int) ≤ Obs.treated demoUnits ∧ (2 : Int) ≤ Obs.control demoUnits ∧
    (Obs.treated demoUnits : Int) < 3 := by decide +kernel

example : (after meanPredictor meanPredictor [.fit 1 demoUnits, .fit 2 demoUnits] (new 1 none none 2 (1 / 20))).hasBeenFit = true ∧
    (after meanPredictor meanPredictor [.fit 1 demoUnits, .reset] (new 1 none none 2 (1 / 20))).hasBeenFit = false ∧
    (after meanPredictor meanPredictor [.fit 1 demoUnits] (new 1 none none 3 (1 / 20))).hasBeenFit = false := by decide +kernel

/-! ## C49 -/

/-- **C49**: a fitted AIPW parameter with `1e-15 ≤ min_overlap ≤ 1/2` scores every non-empty dataset of the
right dimension without raising: one finite score per unit, the textbook formula with a propensity in
`[min_overlap, 1 - min_overlap]`, and for binary exposure within `|y - mu(x,z)| / min_overlap` of
`mu(1,z) - mu(0,z)`. -/
theorem C49_score (R : Predictor M α) (C : Predictor P α) (s : AIPW M P α) (hfit : s.hasBeenFit = true)
    (ho1 : 1 / 10 ^ 15 ≤ s.minOverlap) (ho2 : s.minOverlap ≤ 1 / 2) (us : List (Obs α)) (hne : us ≠ []) :
    ∃ e : List α → α, (∀ z, s.minOverlap ≤ e z ∧ e z ≤ 1 - s.minOverlap) ∧
      (∀ z, s.minOverlap ≤ C.predict s.propensity z → C.predict s.propensity z ≤ 1 - s.minOverlap → e z = C.predict s.propensity z) ∧
      score R C s (Obs.dataset s.covDim us) =
        .ok (us.map fun u => .fin (aipwScore (fun x z => R.predict s.response (x :: z)) e u)) ∧
      ∀ u ∈ us, u.Binary →
        |aipwScore (fun x z => R.predict s.response (x :: z)) e u - (R.predict s.response (1 :: u.zv) - R.predict s.response (0 :: u.zv))| ≤
          |u.yv - R.predict s.response (u.xv :: u.zv)| / s.minOverlap := by
  have ht : (0 : α) < 1 / 10 ^ 15 := by positivity
  have hpos : 0 < s.minOverlap := lt_of_lt_of_le ht ho1
  have hb : ∀ z, s.minOverlap ≤ eHat C s z ∧ eHat C s z ≤ 1 - s.minOverlap := fun z => clip_mem (by linarith)
  refine ⟨eHat C s, hb, ?_, score_dataset R C s us hfit hne ho1 ho2, ?_⟩
  · intro z h1 h2
    simp only [eHat, clip, max_eq_left h1, min_eq_left h2]
  · intro u _ hx
    obtain ⟨b1, b2⟩ := hb u.zv
    unfold aipwScore
    rw [add_sub_cancel_left, abs_mul, div_eq_mul_inv _ s.minOverlap]
    apply mul_le_mul_of_nonneg_left _ (abs_nonneg _)
    rcases hx with h | h
    · rw [h, zero_div, sub_zero, zero_sub, abs_neg, abs_of_nonneg (by apply div_nonneg <;> linarith), one_div]
      exact inv_anti₀ hpos (by linarith)
    · rw [h, sub_self, zero_div, sub_zero, abs_of_nonneg (by apply div_nonneg <;> linarith), one_div]
      exact inv_anti₀ hpos b1

/-- **C49 is violated on an empty dataset**: a fitted AIPW parameter raises `ValueError` when scoring zero
units (sklearn rejects empty input), although an unfitted one returns the empty array. -/
theorem C49_empty_violated (R : Predictor M α) (C : Predictor P α) (s : AIPW M P α) :
    score R C s (Obs.dataset s.covDim []) = if s.hasBeenFit then .error .valueError else .ok [] := by
  cases h : s.hasBeenFit
  · have : (Obs.dataset s.covDim ([] : List (Obs α))).nUnits = 0 := by rw [Obs.dataset_nUnits]; rfl
    simp [score, transform, h, this, phi, bind, Except.bind, Obs.dataset_exp, Obs.dataset_rsp, pure, Except.pure]
  · simp [score, transform, h, bind, Except.bind, Obs.dataset_cov2d, Obs.dataset_nFeatures, Predictor.predictRows]

/-- An unfitted parameter scores every unit NaN. -/
theorem C49_unfitted (R : Predictor M α) (C : Predictor P α) (s : AIPW M P α) (hfit : s.hasBeenFit = false) (c : Nat) (us : List (Obs α)) :
    score R C s (Obs.dataset c us) = .ok (us.map fun _ => .nan) := by
  have hn : ∀ n, (List.replicate n (⟨.nan, .nan, .nan, .nan⟩ : AipwEta α)).any (fun t => t.e.lt (.fin tiny)) = false := by
    intro n; rw [List.any_eq_false]; intro t ht; rw [(List.mem_replicate.mp ht).2]; simp [Fl.lt]
  have hn' : ∀ n, (List.replicate n (⟨.nan, .nan, .nan, .nan⟩ : AipwEta α)).any (fun t => (Fl.fin (1 - tiny)).lt t.e) = false := by
    intro n; rw [List.any_eq_false]; intro t ht; rw [(List.mem_replicate.mp ht).2]; simp [Fl.lt]
  unfold score transform
  simp only [hfit, Bool.not_false, if_true, bind, Except.bind, phi, hn, hn', Bool.or_self, Bool.false_eq_true, if_false,
    Obs.dataset_rsp, Obs.dataset_exp, Obs.dataset_nUnits, List.length_map, List.length_replicate, ne_eq, not_true_eq_false,
    or_self, pure, Except.pure]
  congr 1
  rw [Obs.vals_x, Obs.vals_y, List.zip_map', ← List.map_const', List.zip_map', List.map_map]
  apply List.map_congr_left
  intro u _
  rfl

example : score meanPredictor meanPredictor
    (after meanPredictor meanPredictor [.fit 1 demoUnits] (new 1 none none 2 (1 / 20))) (Obs.dataset 1 demoUnits) =
    .ok [.fin (1 / 2), .fin (7 / 2), .fin (3 / 2), .fin (9 / 2)] := by decide +kernel

/-! ## C50 -/

/-- **C50 (double robustness)**: take any finite population of units with binary exposure and non-negative
weights, and any fitted AIPW parameter (`1e-15 ≤ min_overlap ≤ 1/2`).  If its outcome model is the true
conditional mean, or its clipped propensity is the true propensity (with the other model arbitrary),
then the weighted mean of the scores computed by `calculate_score` is the covariate-adjusted effect. -/
theorem C50_doubly_robust (R : Predictor M α) (C : Predictor P α) (s : AIPW M P α) (hfit : s.hasBeenFit = true)
    (ho1 : 1 / 10 ^ 15 ≤ s.minOverlap) (ho2 : s.minOverlap ≤ 1 / 2)
    (n : Nat) (hn : 0 < n) (unit : Fin n → Obs α) (w : Fin n → α) (hw : ∀ i, 0 ≤ w i) (hx : ∀ i, (unit i).Binary)
    (hcorrect :
      (∀ i, R.predict s.response (1 :: (unit i).zv) = trueResponse w unit 1 (unit i).zv ∧
            R.predict s.response (0 :: (unit i).zv) = trueResponse w unit 0 (unit i).zv) ∨
      (∀ i, clip (C.predict s.propensity (unit i).zv) s.minOverlap (1 - s.minOverlap) = truePropensity w unit (unit i).zv)) :
    ∃ sc : Fin n → α, score R C s (Obs.dataset s.covDim (List.ofFn unit)) = .ok (List.ofFn fun i => .fin (sc i)) ∧
      ∑ i, w i * sc i = adjustedEffect w unit := by
  have ht : (0 : α) < 1 / 10 ^ 15 := by positivity
  have hpos : 0 < s.minOverlap := lt_of_lt_of_le ht ho1
  have hb : ∀ z, s.minOverlap ≤ eHat C s z ∧ eHat C s z ≤ 1 - s.minOverlap := fun z => clip_mem (by linarith)
  refine ⟨fun i => aipwScore (fun x z => R.predict s.response (x :: z)) (eHat C s) (unit i), ?_, ?_⟩
  · rw [score_dataset R C s _ hfit (by intro h; have := congrArg List.length h; simp at this; omega) ho1 ho2, List.map_ofFn]
    rfl
  · set mu : α → List α → α := fun x z => R.predict s.response (x :: z) with hmu
    set e := eHat C s with he
    have he0 : ∀ z, e z ≠ 0 := fun z => by have := hb z; intro h; rw [h] at this; linarith
    have he1 : ∀ z, 1 - e z ≠ 0 := fun z => by have := hb z; intro h; linarith
    have hw' : ∀ i ∈ (Finset.univ : Finset (Fin n)), 0 ≤ w i := fun i _ => hw i
    have hadj : adjustedEffect w unit = ∑ i, w i * (trueResponse w unit 1 (unit i).zv - trueResponse w unit 0 (unit i).zv) := rfl
    rw [hadj]
    -- replace `y` by the conditional mean
    have t1 := tower Finset.univ w hw' (fun j => ((unit j).xv, (unit j).zv)) (fun j => (unit j).yv)
      (fun k => k.1 / e k.2 - (1 - k.1) / (1 - e k.2))
    have split : ∑ i, w i * aipwScore mu e (unit i) =
        ∑ i, (w i * (mu 1 (unit i).zv - mu 0 (unit i).zv) +
          w i * (trueResponse w unit (unit i).xv (unit i).zv - mu (unit i).xv (unit i).zv) *
            ((unit i).xv / e (unit i).zv - (1 - (unit i).xv) / (1 - e (unit i).zv))) := by
      have : ∀ i, w i * aipwScore mu e (unit i) = (w i * (mu 1 (unit i).zv - mu 0 (unit i).zv) -
            w i * mu (unit i).xv (unit i).zv * ((unit i).xv / e (unit i).zv - (1 - (unit i).xv) / (1 - e (unit i).zv))) +
          w i * (unit i).yv * ((unit i).xv / e (unit i).zv - (1 - (unit i).xv) / (1 - e (unit i).zv)) := by
        intro i; unfold aipwScore; ring
      rw [Finset.sum_congr rfl fun i _ => this i, Finset.sum_add_distrib, t1, ← Finset.sum_add_distrib]
      apply Finset.sum_congr rfl
      intro i _
      show _ + w i * trueResponse w unit (unit i).xv (unit i).zv * _ = _
      ring
    rw [split]
    rcases hcorrect with hc | hc
    · apply Finset.sum_congr rfl
      intro i _
      obtain ⟨c1, c0⟩ := hc i
      have : trueResponse w unit (unit i).xv (unit i).zv - mu (unit i).xv (unit i).zv = 0 := by
        rcases hx i with h | h <;> rw [h] <;> simp only [hmu, c1, c0, sub_self]
      rw [this]
      simp only [hmu, c1, c0]
      ring
    · have hc' : ∀ i, e (unit i).zv = truePropensity w unit (unit i).zv := hc
      -- the exposure may be replaced by the propensity
      have t2 := tower Finset.univ w hw' (fun j => (unit j).zv) (fun j => (unit j).xv)
        (fun z => (trueResponse w unit 1 z - mu 1 z) / e z + (trueResponse w unit 0 z - mu 0 z) / (1 - e z))
      have key : ∀ i, w i * (trueResponse w unit (unit i).xv (unit i).zv - mu (unit i).xv (unit i).zv) *
            ((unit i).xv / e (unit i).zv - (1 - (unit i).xv) / (1 - e (unit i).zv)) =
          w i * (unit i).xv * ((trueResponse w unit 1 (unit i).zv - mu 1 (unit i).zv) / e (unit i).zv +
            (trueResponse w unit 0 (unit i).zv - mu 0 (unit i).zv) / (1 - e (unit i).zv)) -
          w i * ((trueResponse w unit 0 (unit i).zv - mu 0 (unit i).zv) / (1 - e (unit i).zv)) := by
        intro i
        rcases hx i with h | h <;> rw [h] <;> ring
      rw [Finset.sum_congr rfl fun i _ => congrArg (w i * (mu 1 (unit i).zv - mu 0 (unit i).zv) + ·) (key i)]
      have : ∀ i : Fin n, w i * (mu 1 (unit i).zv - mu 0 (unit i).zv) +
          (w i * (unit i).xv * ((trueResponse w unit 1 (unit i).zv - mu 1 (unit i).zv) / e (unit i).zv +
            (trueResponse w unit 0 (unit i).zv - mu 0 (unit i).zv) / (1 - e (unit i).zv)) -
          w i * ((trueResponse w unit 0 (unit i).zv - mu 0 (unit i).zv) / (1 - e (unit i).zv))) =
          (w i * (mu 1 (unit i).zv - mu 0 (unit i).zv) -
          w i * ((trueResponse w unit 0 (unit i).zv - mu 0 (unit i).zv) / (1 - e (unit i).zv))) +
          w i * (unit i).xv * ((trueResponse w unit 1 (unit i).zv - mu 1 (unit i).zv) / e (unit i).zv +
            (trueResponse w unit 0 (unit i).zv - mu 0 (unit i).zv) / (1 - e (unit i).zv)) := fun i => by ring
      rw [Finset.sum_congr rfl fun i _ => this i, Finset.sum_add_distrib, t2, ← Finset.sum_add_distrib]
      apply Finset.sum_congr rfl
      intro i _
      show _ + w i * truePropensity w unit (unit i).zv * _ = _
      rw [← hc' i]
      have := he0 (unit i).zv
      have := he1 (unit i).zv
      field_simp
      ring

/-- The adjusted effect is the average causal effect of the potential outcomes `y1`, `y0` when these are
consistent with the observations and, given the covariates, mean-independent of the exposure. -/
theorem C50_causal (n : Nat) (unit : Fin n → Obs α) (w : Fin n → α) (hw : ∀ i, 0 ≤ w i) (y1 y0 : Fin n → α)
    (hcons : ∀ i, ((unit i).xv = 1 → (unit i).yv = y1 i) ∧ ((unit i).xv = 0 → (unit i).yv = y0 i))
    (hun : ∀ i, condMean Finset.univ w (fun j => ((unit j).xv, (unit j).zv)) y1 (1, (unit i).zv) = condMean Finset.univ w (fun j => (unit j).zv) y1 (unit i).zv ∧
      condMean Finset.univ w (fun j => ((unit j).xv, (unit j).zv)) y0 (0, (unit i).zv) = condMean Finset.univ w (fun j => (unit j).zv) y0 (unit i).zv) :
    adjustedEffect w unit = ∑ i, w i * (y1 i - y0 i) := by
  have hw' : ∀ i ∈ (Finset.univ : Finset (Fin n)), 0 ≤ w i := fun i _ => hw i
  have e1 : ∀ z, condMean Finset.univ w (fun j => ((unit j).xv, (unit j).zv)) (fun j => (unit j).yv) (1, z) =
      condMean Finset.univ w (fun j => ((unit j).xv, (unit j).zv)) y1 (1, z) := by
    intro z
    unfold condMean
    congr 1
    apply Finset.sum_congr rfl
    intro i hi
    have := (Finset.mem_filter.mp hi).2
    show w i * (unit i).yv = w i * y1 i
    rw [(hcons i).1 (congrArg Prod.fst this)]
  have e0 : ∀ z, condMean Finset.univ w (fun j => ((unit j).xv, (unit j).zv)) (fun j => (unit j).yv) (0, z) =
      condMean Finset.univ w (fun j => ((unit j).xv, (unit j).zv)) y0 (0, z) := by
    intro z
    unfold condMean
    congr 1
    apply Finset.sum_congr rfl
    intro i hi
    have := (Finset.mem_filter.mp hi).2
    show w i * (unit i).yv = w i * y0 i
    rw [(hcons i).2 (congrArg Prod.fst this)]
  unfold adjustedEffect
  rw [Finset.sum_congr rfl fun i _ => by rw [e1, e0, (hun i).1, (hun i).2]]
  have t1 := tower Finset.univ w hw' (fun j => (unit j).zv) y1 (fun _ => 1)
  have t0 := tower Finset.univ w hw' (fun j => (unit j).zv) y0 (fun _ => 1)
  simp only [mul_one] at t1 t0
  simp only [mul_sub]
  rw [Finset.sum_sub_distrib, Finset.sum_sub_distrib, t1, t0]

/-- A predictor for examples: a fixed function. -/
def constPredictor (f : List ℚ → ℚ) : Predictor Unit ℚ where
  fit := fun m _ _ => (.ok (), m)
  predict := fun _ r => f r
  clone := fun m => m

/-- Six units with weights `1/6`, confounded by one binary covariate. -/
def demoPop : Fin 6 → Obs ℚ :=
  ![⟨[.int 0], .int 1, .flt 4⟩, ⟨[.int 0], .int 0, .flt 1⟩, ⟨[.int 0], .int 0, .flt 3⟩,
    ⟨[.int 1], .int 1, .flt 9⟩, ⟨[.int 1], .int 1, .flt 7⟩, ⟨[.int 1], .int 0, .flt 5⟩]

/-- A correct propensity model with a useless outcome model, and the other way round. -/
example :
    (∀ i, clip ((constPredictor fun z => if z = [0] then 1 / 3 else 2 / 3).predict () (demoPop i).zv) (1 / 20) (1 - 1 / 20) =
      truePropensity (fun _ => 1 / 6) demoPop (demoPop i).zv) ∧
    (∀ i, (constPredictor fun r => if r = [1, 0] then 4 else if r = [0, 0] then 2 else if r = [1, 1] then 8 else 5).predict () (1 :: (demoPop i).zv) =
        trueResponse (fun _ => 1 / 6) demoPop 1 (demoPop i).zv ∧
      (constPredictor fun r => if r = [1, 0] then 4 else if r = [0, 0] then 2 else if r = [1, 1] then 8 else 5).predict () (0 :: (demoPop i).zv) =
        trueResponse (fun _ => 1 / 6) demoPop 0 (demoPop i).zv) ∧
    adjustedEffect (fun _ => 1 / 6) demoPop = 5 / 2 := by decide +kernel

/-- Potential outcomes for which the exposure is unconfounded given the covariate. -/
example :
    let y1 : Fin 6 → ℚ := ![4, 3, 5, 9, 7, 8]
    let y0 : Fin 6 → ℚ := ![2, 1, 3, 4, 6, 5]
    (∀ i, ((demoPop i).xv = 1 → (demoPop i).yv = y1 i) ∧ ((demoPop i).xv = 0 → (demoPop i).yv = y0 i)) ∧
    (∀ i, condMean Finset.univ (fun _ => (1 / 6 : ℚ)) (fun j => ((demoPop j).xv, (demoPop j).zv)) y1 (1, (demoPop i).zv) =
        condMean Finset.univ (fun _ => 1 / 6) (fun j => (demoPop j).zv) y1 (demoPop i).zv ∧
      condMean Finset.univ (fun _ => (1 / 6 : ℚ)) (fun j => ((demoPop j).xv, (demoPop j).zv)) y0 (0, (demoPop i).zv) =
        condMean Finset.univ (fun _ => 1 / 6) (fun j => (demoPop j).zv) y0 (demoPop i).zv) := by decide +kernel

/-! ## C57 for AIPW -/

theorem clone_after (R : Predictor M α) (C : Predictor P α) (hR : R.CloneLaws) (hC : C.CloneLaws) (h : List (EtaEvent α)) (s : AIPW M P α) :
    R.clone (after R C h s).response = R.clone s.response ∧ C.clone (after R C h s).propensity = C.clone s.propensity := by
  induction h generalizing s with
  | nil => exact ⟨rfl, rfl⟩
  | cons e h ih =>
    cases e with
    | reset =>
      obtain ⟨h1, h2⟩ := ih (reset R C s)
      exact ⟨h1.trans (hR.clone _), h2.trans (hC.clone _)⟩
    | fit c us =>
      obtain ⟨h1, h2⟩ := ih (fit R C (Obs.dataset c us) s).2
      suffices hs : R.clone (fit R C (Obs.dataset c us) s).2.response = R.clone s.response ∧
          C.clone (fit R C (Obs.dataset c us) s).2.propensity = C.clone s.propensity from ⟨h1.trans hs.1, h2.trans hs.2⟩
      have cR : ∀ rows ys, R.clone (R.fitRows rows ys s.response).2 = R.clone s.response := by
        intro rows ys; unfold Predictor.fitRows; split
        · rfl
        · exact hR.fit _ _ _
      have cC : ∀ rows ys, C.clone (C.fitRows rows ys s.propensity).2 = C.clone s.propensity := by
        intro rows ys; unfold Predictor.fitRows; split
        · rfl
        · exact hC.fit _ _ _
      by_cases hc : c = s.covDim
      · subst hc
        cases h : tooFew s.minUnits (Obs.dataset s.covDim us).nUnits (us.map Obs.x)
        · rw [fit_enough R C us s h]
          specialize cR (us.map fun u => u.xv :: u.zv) (us.map Obs.yv)
          specialize cC (us.map Obs.zv) (us.map Obs.xv)
          generalize R.fitRows (us.map fun u => u.xv :: u.zv) (us.map Obs.yv) s.response = r at cR
          obtain ⟨_ | _, m⟩ := r
          · exact ⟨cR, rfl⟩
          · dsimp only
            generalize C.fitRows (us.map Obs.zv) (us.map Obs.xv) s.propensity = r at cC
            obtain ⟨_ | _, p⟩ := r <;> exact ⟨cR, cC⟩
        · rw [fit_few R C us s h]; exact ⟨rfl, rfl⟩
      · rw [fit_wrong R C _ s (by rw [Obs.dataset_nFeatures]; exact hc)]; exact ⟨rfl, rfl⟩

/-- **C57 for AIPW**: after any history, `reset()` gives exactly the parameter that was constructed
(with unfitted predictors, i.e. ones that equal their clone). -/
theorem C57_aipw (R : Predictor M α) (C : Predictor P α) (hR : R.CloneLaws) (hC : C.CloneLaws) (h : List (EtaEvent α))
    (dim : Nat) (m : M) (p : P) (hm : R.clone m = m) (hp : C.clone p = p) (minUnits : Int) (mo : α) :
    reset R C (after R C h (new dim m p minUnits mo)) = new dim m p minUnits mo := by
  obtain ⟨c1, c2, c3⟩ := after_config R C h (new dim m p minUnits mo)
  obtain ⟨k1, k2⟩ := clone_after R C hR hC h (new dim m p minUnits mo)
  have e1 : (after R C h (new dim m p minUnits mo)).covDim = dim := c1
  have e2 : (after R C h (new dim m p minUnits mo)).minUnits = minUnits := c2
  have e3 : (after R C h (new dim m p minUnits mo)).minOverlap = mo := c3
  have e4 : R.clone (after R C h (new dim m p minUnits mo)).response = m := k1.trans hm
  have e5 : C.clone (after R C h (new dim m p minUnits mo)).propensity = p := k2.trans hp
  unfold reset
  rw [e1, e2, e3, e4, e5]
  rfl

example : meanPredictor.clone none = none ∧
    (after meanPredictor meanPredictor [.fit 1 demoUnits] (new 1 none none 2 (1 / 20))).response = some (11 / 4) := by decide +kernel

end AIPW
end Verif
