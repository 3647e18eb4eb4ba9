import Verif.Props.LinearGen

/-!
# C67 `set_to_truth` and `estimate_true_variance`
-/

set_option linter.unusedSectionVars false
set_option linter.unusedSimpArgs false

namespace Verif
open Param

variable {H H' W α : Type} [Field α] [LinearOrder α]

theorem zipMul_sum (k : Nat) (a z : List α) (ha : a.length = k) (hz : z.length = k) :
    (List.zipWith (· * ·) a z).sum = ∑ j : Fin k, z.getD j 0 * a.getD j 0 := by
  rw [← List.sum_ofFn]
  congr 1
  apply List.ext_getElem
  · simp [ha, hz]
  · intro i h1 h2
    simp only [List.length_ofFn] at h2
    rw [List.getElem_zipWith, List.getElem_ofFn, List.getD_eq_getElem z 0 (by omega), List.getD_eq_getElem a 0 (by omega), mul_comm]

namespace AIPW
variable (link : α → α)
  (fitR : LinEst H α → List (List α) → List α → Except PyErr Unit × LinEst H α) (cloneR : LinEst H α → LinEst H α)
  (fitC : LinEst H' α → List (List α) → List α → Except PyErr Unit × LinEst H' α) (cloneC : LinEst H' α → LinEst H' α)

theorem setToTruth_ok (g : LinGen W α) (s : AIPW (LinEst H α) (LinEst H' α) α) (hg : g.gamma.length = s.covDim) :
    setToTruth (.linear g) s = (.ok (), { s with
      response := { s.response with coef := g.tau :: g.beta }
      propensity := { s.propensity with coef := g.gamma, intercept := 0 } }) := by
  simp only [setToTruth, Py.bind_apply, Py.modify_apply, Py.get_apply, hg, ne_eq, not_true_eq_false, if_false]

/-- The scores of a fitted parameter after `set_to_truth`, with the intercept left in the response model. -/
theorem score_truth [IsStrictOrderedRing α] (g : LinGen W α) (hb : g.beta.length = g.nFeatures) (hg : g.gamma.length = g.nFeatures)
    (s : AIPW (LinEst H α) (LinEst H' α) α) (hd : s.covDim = g.nFeatures) (hfit : s.hasBeenFit = true)
    (ho1 : tiny ≤ s.minOverlap) (ho2 : s.minOverlap ≤ 1 / 2) (us : List (Obs α)) (hne : us ≠ []) (hz : ∀ u ∈ us, u.z.length = g.nFeatures) :
    score (LinEst.predictor id fitR cloneR) (LinEst.predictor link fitC cloneC) (setToTruth (.linear g) s).2 (Obs.dataset g.nFeatures us) =
      .ok (us.map fun u => .fin (g.tau + (u.yv - linMean g u.xv u.zv - s.response.intercept) *
        ipwWeight (clip (link (linScore g u.zv)) s.minOverlap (1 - s.minOverlap)) u.xv)) := by
  rw [setToTruth_ok g s (hg.trans hd.symm)]
  have := score_dataset (LinEst.predictor id fitR cloneR) (LinEst.predictor link fitC cloneC)
    { s with response := { s.response with coef := g.tau :: g.beta }, propensity := { s.propensity with coef := g.gamma, intercept := 0 } }
    us hfit hne ho1 ho2
  have e : Obs.dataset g.nFeatures us = Obs.dataset s.covDim us := by rw [hd]
  rw [e]
  refine this.trans ?_
  congr 1
  refine List.map_congr_left fun u hu => ?_
  have hzl : u.zv.length = g.nFeatures := by simpa [Obs.zv] using hz u hu
  congr 1
  simp only [aipwScore, eHat, LinEst.predictor, id, List.zipWith_cons_cons, List.sum_cons, zipMul_sum _ _ _ hb hzl, zipMul_sum _ _ _ hg hzl,
    linMean, linScore, ipwWeight, add_zero]
  ring

/-- A completed fit leaves intercept 0 when the regressor's does. -/
theorem fitted_intercept (hR : ∀ m rows ys, (fitR m rows ys).1 = .ok () ∨ m.intercept = 0 → (fitR m rows ys).2.intercept = 0)
    (C : Predictor (LinEst H' α) α) (h : List (EtaEvent α)) (s : AIPW (LinEst H α) (LinEst H' α) α)
    (hs : s.hasBeenFit = true → s.response.intercept = 0) :
    (after (LinEst.predictor id fitR cloneR) C h s).hasBeenFit = true → (after (LinEst.predictor id fitR cloneR) C h s).response.intercept = 0 := by
  unfold after
  induction h generalizing s with
  | nil => exact hs
  | cons e h ih =>
    cases e with
    | reset => exact ih _ (by simp [reset])
    | fit c us =>
      refine ih _ ?_
      by_cases hc : c = s.covDim
      · subst hc
        cases ht : tooFew s.minUnits (Obs.dataset s.covDim us).nUnits (us.map Obs.x)
        · rw [fit_enough _ _ us s ht]
          have hr : (Predictor.fitRows (LinEst.predictor id fitR cloneR) (us.map fun u => u.xv :: u.zv) (us.map Obs.yv) s.response).1 = .ok () ∨
              s.response.intercept = 0 →
              (Predictor.fitRows (LinEst.predictor id fitR cloneR) (us.map fun u => u.xv :: u.zv) (us.map Obs.yv) s.response).2.intercept = 0 := by
            unfold Predictor.fitRows
            split
            · rintro (h | h)
              · simp at h
              · exact h
            · exact hR _ _ _
          generalize Predictor.fitRows (LinEst.predictor id fitR cloneR) (us.map fun u => u.xv :: u.zv) (us.map Obs.yv) s.response = r at hr
          generalize Predictor.fitRows C (us.map Obs.zv) (us.map Obs.xv) s.propensity = q
          obtain ⟨_ | _, m⟩ := r
          · exact fun hf => hr (Or.inr (hs hf))
          · obtain ⟨_ | _, p⟩ := q
            · exact fun _ => hr (Or.inl rfl)
            · exact fun _ => hr (Or.inl rfl)
        · rw [fit_few _ _ us s ht]
          exact hs
      · rw [fit_wrong _ _ _ s (by rw [Obs.dataset_nFeatures]; exact hc)]
        exact hs

/-- **C67** (linear response without intercept, logistic propensity): after any history that leaves the parameter fitted,
`set_to_truth` succeeds, and the score of every unit is `tau` plus its true residual times the inverse-propensity
weight for the true propensity, clipped to `[min_overlap, 1 - min_overlap]`. -/
theorem C67_aipw_partial [IsStrictOrderedRing α] (hR : ∀ m rows ys, (fitR m rows ys).1 = .ok () ∨ m.intercept = 0 → (fitR m rows ys).2.intercept = 0)
    (g : LinGen W α) (hb : g.beta.length = g.nFeatures) (hg : g.gamma.length = g.nFeatures)
    (m : LinEst H α) (p : LinEst H' α) (minUnits : Int) (mo : α) (ho1 : tiny ≤ mo) (ho2 : mo ≤ 1 / 2) (h : List (EtaEvent α))
    (us : List (Obs α)) (hne : us ≠ []) (hz : ∀ u ∈ us, u.z.length = g.nFeatures) :
    let R := LinEst.predictor id fitR cloneR
    let C := LinEst.predictor link fitC cloneC
    let s := after R C h (new g.nFeatures m p minUnits mo)
    s.hasBeenFit = true →
    (setToTruth (.linear g) s).1 = .ok () ∧
    score R C (setToTruth (.linear g) s).2 (Obs.dataset g.nFeatures us) =
      .ok (us.map fun u => .fin (g.tau + (u.yv - linMean g u.xv u.zv) * ipwWeight (clip (link (linScore g u.zv)) mo (1 - mo)) u.xv)) := by
  intro R C s hs
  have h0 := fitted_intercept fitR cloneR hR C h (new g.nFeatures m p minUnits mo) (by simp [new]) hs
  have hc := after_config R C h (new g.nFeatures m p minUnits mo)
  obtain ⟨c1, c2, c3⟩ := hc
  have c1' : s.covDim = g.nFeatures := c1
  have c3' : s.minOverlap = mo := c3
  refine ⟨by rw [setToTruth_ok g s (hg.trans c1'.symm)], ?_⟩
  rw [score_truth link fitR cloneR fitC cloneC g hb hg s c1' hs (by rw [c3']; exact ho1) (by rw [c3']; exact ho2) us hne hz, c3']
  congr 1
  refine List.map_congr_left fun u _ => ?_
  rw [show s.response.intercept = 0 from h0, sub_zero]

/-- **C67 is violated by a response model with an intercept**: `set_to_truth` leaves the fitted intercept `c` in place,
and for `c ≠ 0` the score of every binary unit differs from the true one. -/
theorem C67_intercept_violated [IsStrictOrderedRing α] (g : LinGen W α) (hb : g.beta.length = g.nFeatures) (hg : g.gamma.length = g.nFeatures)
    (s : AIPW (LinEst H α) (LinEst H' α) α) (hd : s.covDim = g.nFeatures) (hfit : s.hasBeenFit = true)
    (ho1 : tiny ≤ s.minOverlap) (ho2 : s.minOverlap ≤ 1 / 2) (hc : s.response.intercept ≠ 0)
    (u : Obs α) (hu : u.Binary) (hz : u.z.length = g.nFeatures) :
    ∃ a, score (LinEst.predictor id fitR cloneR) (LinEst.predictor link fitC cloneC) (setToTruth (.linear g) s).2 (Obs.dataset g.nFeatures [u]) =
        .ok [.fin a] ∧
      a ≠ g.tau + (u.yv - linMean g u.xv u.zv) * ipwWeight (clip (link (linScore g u.zv)) s.minOverlap (1 - s.minOverlap)) u.xv := by
  refine ⟨_, score_truth link fitR cloneR fitC cloneC g hb hg s hd hfit ho1 ho2 [u] (by simp) (by simpa using hz), ?_⟩
  have ht : (0 : α) < tiny := by unfold tiny; positivity
  obtain ⟨b1, b2⟩ := clip_mem (x := link (linScore g u.zv)) (show s.minOverlap ≤ 1 - s.minOverlap by linarith)
  generalize clip (link (linScore g u.zv)) s.minOverlap (1 - s.minOverlap) = e at b1 b2
  have he : ipwWeight e u.xv ≠ 0 := by
    unfold ipwWeight
    rcases hu with hx | hx
    · rw [hx]
      have : 1 - e ≠ 0 := by linarith
      simp [this]
    · rw [hx]
      have : e ≠ 0 := by linarith
      simp [this]
  intro h
  have : s.response.intercept * ipwWeight e u.xv = 0 := by linear_combination -h
  exact (mul_ne_zero hc he) this

/-- **C67 is violated by unfitted parameters**: `set_to_truth` succeeds but does not mark the parameter as fitted, and every
score is NaN. -/
theorem C67_unfitted_violated [IsStrictOrderedRing α] (R : Predictor (LinEst H α) α) (C : Predictor (LinEst H' α) α) (g : LinGen W α)
    (s : AIPW (LinEst H α) (LinEst H' α) α) (hg : g.gamma.length = s.covDim) (hfit : s.hasBeenFit = false) (us : List (Obs α)) :
    (setToTruth (.linear g) s).1 = .ok () ∧
    score R C (setToTruth (.linear g) s).2 (Obs.dataset s.covDim us) = .ok (us.map fun _ => .nan) := by
  rw [setToTruth_ok g s hg]
  refine ⟨rfl, ?_⟩
  have := C49_unfitted R C { s with response := { s.response with coef := g.tau :: g.beta }, propensity := { s.propensity with coef := g.gamma, intercept := 0 } } hfit s.covDim us
  exact this

/-- **C67** Another kind of generator is refused and nothing changes.  **Violated** by a `gamma` of the wrong length: it is
refused only after the response model has been overwritten, so the parameter is left half way. -/
theorem C67_refused_violated (g : LinGen W α) (s : AIPW (LinEst H α) (LinEst H' α) α) (hg : g.gamma.length ≠ s.covDim) :
    setToTruth (.other : AnyGen W α) s = (.error .valueError, s) ∧
    (setToTruth (.linear g) s).1 = .error .valueError ∧
    (setToTruth (.linear g) s).2.response.coef = g.tau :: g.beta ∧ (setToTruth (.linear g) s).2.propensity = s.propensity := by
  refine ⟨rfl, ?_⟩
  simp only [setToTruth, Py.bind_apply, Py.modify_apply, Py.get_apply, hg, ne_eq, not_false_eq_true, if_true, Py.raise_apply, true_and]

end AIPW

namespace BinLin
variable (fit : LinEst H α → List (List α) → List α → Except PyErr Unit × LinEst H α) (clone : LinEst H α → LinEst H α)

/-- **C67 for `LinearParameterBinaryTreatment`** (partial): once fitted, `set_to_truth` makes the score of every unit of
every dataset equal to `tau`.  Missing: unfitted parameters (`C67_binary_unfitted_violated`). -/
theorem C67_binary_partial (g : LinGen W α) (s : BinLin (LinEst H α) α) (hfit : s.hasBeenFit = true) (us : List (Obs α)) (hne : us ≠ []) :
    (setToTruth (.linear g) s).1 = .ok () ∧
    score (LinEst.predictor id fit clone) (setToTruth (.linear g) s).2 (Obs.dataset s.covDim us) = .ok (us.map fun _ => .fin g.tau) := by
  refine ⟨rfl, ?_⟩
  have := score_fitted (LinEst.predictor id fit clone) (setToTruth (.linear g) s).2 hfit us hne
  refine this.trans ?_
  congr 1
  refine List.map_congr_left fun u _ => ?_
  simp only [LinEst.predictor, setToTruth, Py.modify_apply, id]
  congr 1
  ring

/-- **C67 is violated by unfitted parameters**: `set_to_truth` succeeds and every score is NaN; another kind of generator
fails with `AttributeError` and changes nothing. -/
theorem C67_binary_unfitted_violated (R : Predictor (LinEst H α) α) (g : LinGen W α) (s : BinLin (LinEst H α) α) (hfit : s.hasBeenFit = false)
    (us : List (Obs α)) :
    (setToTruth (.linear g) s).1 = .ok () ∧
    score R (setToTruth (.linear g) s).2 (Obs.dataset s.covDim us) = .ok (us.map fun _ => .nan) ∧
    setToTruth (.other : AnyGen W α) s = (.error .attributeError, s) :=
  ⟨rfl, (C68_unfitted R (setToTruth (.linear g) s).2).1 hfit s.covDim us, rfl⟩

end BinLin

/-! ## The variance estimated at the truth -/

section Variance
variable {H H' W : Type}

theorem pmean_add (a : ℝ) (xs : List ℝ) (h : xs ≠ []) : pmean (xs.map (a + ·)) = a + pmean xs := by
  have hl : (xs.length : ℝ) ≠ 0 := by simpa using h
  have hs : (xs.map (a + ·)).sum = xs.length * a + xs.sum := by
    clear h hl
    induction xs with
    | nil => simp
    | cons x xs ih => simp only [List.map_cons, List.sum_cons, ih, List.length_cons, Nat.cast_add, Nat.cast_one]; ring
  unfold pmean
  rw [hs, List.length_map]
  field_simp

/-- The variance of a sample does not change when a constant is added. -/
theorem pvar_add (a : ℝ) (xs : List ℝ) (h : xs ≠ []) : pvar (xs.map (a + ·)) = pvar xs := by
  unfold pvar
  rw [pmean_add a xs h, List.map_map]
  congr 1
  refine List.map_congr_left fun x _ => ?_
  simp only [Function.comp]
  ring

theorem estimateTrueVariance_eq {E : Type} {generate : Nat → Py W (ExpData (Cell ℝ))} {setTruth : Py E Unit}
    {score : ExpData (Cell ℝ) → Py E (List (Fl ℝ))} {n : Nat} {e e1 e2 : E} {w w' : W} {d : ExpData (Cell ℝ)} {sc : List (Fl ℝ)}
    (hg : generate n w = (.ok d, w')) (ht : setTruth e = (.ok (), e1)) (hs : score d e1 = (.ok sc, e2)) :
    estimateTrueVariance generate setTruth score n (e, w) = (.ok (Fl.var sc), (e2, w')) := by
  have a1 : onWorld (generate n) (e, w) = (.ok d, (e, w')) := by
    show ((generate n w).1, (e, (generate n w).2)) = _
    rw [hg]
  have a2 : onEta setTruth (e, w') = (.ok (), (e1, w')) := by
    show ((setTruth e).1, ((setTruth e).2, w')) = _
    rw [ht]
  have a3 : onEta (score d) (e1, w') = (.ok sc, (e2, w')) := by
    show ((score d e1).1, ((score d e1).2, w')) = _
    rw [hs]
  unfold estimateTrueVariance
  rw [Py.bind_apply, a1]
  dsimp only
  rw [Py.bind_apply, a2]
  dsimp only
  rw [Py.bind_apply, a3]
  rfl

theorem linearUnit_z (r : Draws W ℝ) (k : Nat) (beta gamma : List ℝ) (tau : ℝ) (w : W) (n : Nat) (e : Nat → ℝ) (i : Nat) :
    (linearUnit r k beta gamma tau w n e i).z.length = k := by simp [linearUnit]

/-- The residual of a generated unit is its noise. -/
theorem linearUnit_residual (r : Draws W ℝ) (g : LinGen W ℝ) (w : W) (n : Nat) (e : Nat → ℝ) (i : Nat) :
    let u := linearUnit r g.nFeatures g.beta g.gamma g.tau w n e i
    u.yv - linMean g u.xv u.zv = e i := by
  have hz : ∀ j : Fin g.nFeatures, (linearUnit r g.nFeatures g.beta g.gamma g.tau w n e i).zv.getD j 0 = nthDraw r.gauss w (i * g.nFeatures + j) := by
    intro j
    rw [List.getD_eq_getElem _ _ (by simp [Obs.zv, linearUnit])]
    simp [Obs.zv, linearUnit, Cell.val]
  intro u
  unfold linMean
  simp only [u, hz]
  simp only [Obs.yv, Obs.xv, linearUnit, Cell.val]
  ring

/-- **C67, the variance**: for data of the linear model and a parameter fitted by any history (response without intercept),
`estimate_true_variance` returns the sample variance of `noise * weight`, the weights being those of the true
propensity clipped to `[min_overlap, 1 - min_overlap]`. -/
theorem AIPW.C67_variance_partial (r : Draws W ℝ) (hs : ∀ a, 0 ≤ r.sig a ∧ r.sig a ≤ 1)
    (fitR : LinEst H ℝ → List (List ℝ) → List ℝ → Except PyErr Unit × LinEst H ℝ) (cloneR : LinEst H ℝ → LinEst H ℝ)
    (fitC : LinEst H' ℝ → List (List ℝ) → List ℝ → Except PyErr Unit × LinEst H' ℝ) (cloneC : LinEst H' ℝ → LinEst H' ℝ)
    (hR : ∀ m rows ys, (fitR m rows ys).1 = .ok () ∨ m.intercept = 0 → (fitR m rows ys).2.intercept = 0)
    (g : LinGen W ℝ) (hb : g.beta.length = g.nFeatures) (hg : g.gamma.length = g.nFeatures)
    (m : LinEst H ℝ) (p : LinEst H' ℝ) (minUnits : Int) (mo : ℝ) (ho1 : AIPW.tiny ≤ mo) (ho2 : mo ≤ 1 / 2) (h : List (EtaEvent ℝ))
    (n : Nat) (hn : n ≠ 0) (w w1 w2 : W) (e0 e : List ℝ)
    (h1 : g.noise n (afterDraws r.unif (afterDraws r.gauss w (n * g.nFeatures)) n) = (.ok e0, w1)) (hl : e0.length = n)
    (h2 : g.noise n w1 = (.ok e, w2)) (hl' : e.length = n) :
    let R := LinEst.predictor id fitR cloneR
    let C := LinEst.predictor r.sig fitC cloneC
    let s := AIPW.after R C h (AIPW.new g.nFeatures m p minUnits mo)
    let u := linearUnit r g.nFeatures g.beta g.gamma g.tau w n fun i => e.getD i 0
    s.hasBeenFit = true →
    estimateTrueVariance (LinGen.generate r g) (AIPW.setToTruth (.linear g)) (fun d s => (AIPW.score R C s d, s)) n (s, w) =
      (.ok (.fin (pvar ((List.range n).map fun i => e.getD i 0 * ipwWeight (clip (r.sig (linScore g (u i).zv)) mo (1 - mo)) (u i).xv))),
        ((AIPW.setToTruth (.linear g) s).2, w2)) := by
  intro R C s u hf
  have hne : (List.range n).map u ≠ [] := by simpa using hn
  obtain ⟨t1, t2⟩ := AIPW.C67_aipw_partial r.sig fitR cloneR fitC cloneC hR g hb hg m p minUnits mo ho1 ho2 h ((List.range n).map u) hne
    (by
      intro v hv
      obtain ⟨i, _, rfl⟩ := List.mem_map.mp hv
      exact linearUnit_z _ _ _ _ _ _ _ _ _) hf
  have hgen := LinGen.C71_model r hs g hg hb n w w1 w2 e0 e h1 hl h2 hl'
  refine (estimateTrueVariance_eq hgen (Prod.ext t1 rfl) (Prod.ext t2 rfl)).trans ?_
  refine Prod.ext ?_ rfl
  dsimp only
  congr 1
  rw [List.map_map]
  have : (fun i : Nat => (Fl.fin (g.tau + (e.getD i 0 * ipwWeight (clip (r.sig (linScore g (u i).zv)) mo (1 - mo)) (u i).xv)) : Fl ℝ)) =
      (fun v : Obs ℝ => Fl.fin (g.tau + (v.yv - linMean g v.xv v.zv) * ipwWeight (clip (r.sig (linScore g v.zv)) mo (1 - mo)) v.xv)) ∘ u := by
    funext i
    simp only [Function.comp]
    rw [linearUnit_residual r g w n (fun i => e.getD i 0) i]
  rw [← this]
  have h3 := Arm.var_fin (((List.range n).map fun i => e.getD i 0 * ipwWeight (clip (r.sig (linScore g (u i).zv)) mo (1 - mo)) (u i).xv).map (g.tau + ·)) (by simpa using hn)
  rw [pvar_add _ _ (by simpa using hn), List.map_map, List.map_map] at h3
  exact h3

/-- **C67, the variance of `LinearParameterBinaryTreatment`**: always 0 for a fitted parameter, whatever the data. -/
theorem BinLin.C67_variance_partial (fit : LinEst H ℝ → List (List ℝ) → List ℝ → Except PyErr Unit × LinEst H ℝ) (clone : LinEst H ℝ → LinEst H ℝ)
    (g : LinGen W ℝ) (s : BinLin (LinEst H ℝ) ℝ) (hfit : s.hasBeenFit = true) (generate : Nat → Py W (ExpData (Cell ℝ))) (n : Nat) (w w' : W)
    (us : List (Obs ℝ)) (hne : us ≠ []) (hgen : generate n w = (.ok (Obs.dataset s.covDim us), w')) :
    (estimateTrueVariance generate (BinLin.setToTruth (.linear g)) (fun d s => (BinLin.score (LinEst.predictor id fit clone) s d, s)) n (s, w)).1 =
      .ok (.fin 0) := by
  obtain ⟨t1, t2⟩ := BinLin.C67_binary_partial fit clone g s hfit us hne
  refine (congrArg Prod.fst (estimateTrueVariance_eq hgen (Prod.ext t1 rfl) (Prod.ext t2 rfl))).trans ?_
  dsimp only
  congr 1
  have h3 := Arm.var_fin (us.map fun _ => g.tau) (by simpa using hne)
  rw [List.map_map] at h3
  refine h3.trans ?_
  congr 1
  have e : us.map (fun _ => g.tau) = (us.map fun _ => (0 : ℝ)).map (g.tau + ·) := by simp
  rw [e, pvar_add _ _ (by simpa using hne)]
  unfold pvar pmean
  simp

end Variance

/-! ## Concrete cases -/

/-- A regressor that learns the mean response as its coefficients and the given intercept. -/
def demoFit (c : ℚ) : LinEst Unit ℚ → List (List ℚ) → List ℚ → Except PyErr Unit × LinEst Unit ℚ :=
  fun m _ ys => (.ok (), { m with coef := [ys.sum / ys.length, 0], intercept := c })

/-- A logistic-like link with rational values. -/
def demoLink (a : ℚ) : ℚ := if a < 3 then 1 / 4 else 3 / 4

/-- The history used in the examples: one fit. -/
def demoFitted (c : ℚ) : AIPW (LinEst Unit ℚ) (LinEst Unit ℚ) ℚ :=
  AIPW.after (LinEst.predictor id (demoFit c) id) (LinEst.predictor demoLink (demoFit 0) id) [.fit 1 AIPW.demoUnits]
    (AIPW.new 1 ⟨[], 0, ()⟩ ⟨[], 0, ()⟩ 2 (1 / 20))

example : (∀ m rows ys, (demoFit 0 m rows ys).1 = .ok () ∨ m.intercept = 0 → (demoFit 0 m rows ys).2.intercept = 0) ∧
    LinGen.demo.beta.length = LinGen.demo.nFeatures ∧ LinGen.demo.gamma.length = LinGen.demo.nFeatures ∧
    (AIPW.tiny : ℚ) ≤ 1 / 20 ∧ (1 / 20 : ℚ) ≤ 1 / 2 ∧ (demoFitted 0).hasBeenFit = true ∧
    (∀ u ∈ AIPW.demoUnits, u.z.length = LinGen.demo.nFeatures) ∧
    AIPW.score (LinEst.predictor id (demoFit 0) id) (LinEst.predictor demoLink (demoFit 0) id) (AIPW.setToTruth (.linear LinGen.demo) (demoFitted 0)).2
      (Obs.dataset 1 (AIPW.demoUnits.take 2)) = .ok [.fin (10 + (3 - 10) * 4), .fin (10 + (1 - 2) * (- 4 / 3))] := by
  refine ⟨fun _ _ _ _ => rfl, by decide +kernel, by decide +kernel, by decide +kernel, by decide +kernel, by decide +kernel,
    by decide +kernel, by decide +kernel⟩

/-- The hypotheses of the theorem on the variance, over the reals. -/
example (fit : LinEst Unit ℝ → List (List ℝ) → List ℝ → Except PyErr Unit × LinEst Unit ℝ)
    (hfit : fit = fun m _ _ => (.ok (), { m with intercept := 0 })) (link : ℝ → ℝ) :
    (∀ m rows ys, (fit m rows ys).1 = .ok () ∨ m.intercept = 0 → (fit m rows ys).2.intercept = 0) ∧
    (AIPW.tiny : ℝ) ≤ 1 / 20 ∧
    (AIPW.after (LinEst.predictor id fit id) (LinEst.predictor link fit id) [.fit 1 realUnits]
      (AIPW.new 1 ⟨[], 0, ()⟩ ⟨[], 0, ()⟩ 1 (1 / 20))).hasBeenFit = true := by
  subst hfit
  refine ⟨fun _ _ _ _ => rfl, by unfold AIPW.tiny; norm_num, ?_⟩
  have hb : ∀ u ∈ realUnits, u.Binary := by
    intro u hu
    simp only [realUnits, List.mem_cons, List.not_mem_nil, or_false] at hu
    rcases hu with rfl | rfl <;> simp [Obs.Binary, Obs.xv, Cell.val]
  have h1 : Obs.treated realUnits = 1 := by simp [Obs.treated, realUnits, Obs.xv, Cell.val]
  have h2 : Obs.control realUnits = 1 := by simp [Obs.control, realUnits, Obs.xv, Cell.val]
  have := (AIPW.C48_fit (LinEst.predictor (H := Unit) (α := ℝ) id (fun m _ _ => (.ok (), { m with intercept := 0 })) id)
    (LinEst.predictor link (fun m _ _ => (.ok (), { m with intercept := 0 })) id)
    (AIPW.new 1 ⟨[], 0, ()⟩ ⟨[], 0, ()⟩ 1 (1 / 20) : AIPW (LinEst Unit ℝ) (LinEst Unit ℝ) ℝ) realUnits hb).2.2
    (fun _ _ _ _ _ => rfl) (fun _ _ _ _ _ => rfl) (by simp [realUnits]) (by rw [h1]; decide) (by rw [h2]; decide)
  exact (congrArg (fun q => q.2.hasBeenFit) this).trans rfl

example : (demoFitted 1).hasBeenFit = true ∧ (demoFitted 1).covDim = LinGen.demo.nFeatures ∧ (demoFitted 1).response.intercept ≠ 0 ∧
    (∀ u ∈ AIPW.demoUnits, u.xv = 0 ∨ u.xv = 1) ∧
    AIPW.score (LinEst.predictor id (demoFit 1) id) (LinEst.predictor demoLink (demoFit 0) id) (AIPW.setToTruth (.linear LinGen.demo) (demoFitted 1)).2
      (Obs.dataset 1 (AIPW.demoUnits.take 1)) = .ok [.fin (10 + (3 - 10 - 1) * 4)] := by
  decide +kernel

example : (AIPW.new 1 ⟨[], 0, ()⟩ ⟨[], 0, ()⟩ 2 (1 / 20) : AIPW (LinEst Unit ℚ) (LinEst Unit ℚ) ℚ).hasBeenFit = false ∧
    LinGen.demo.gamma.length = (AIPW.new 1 ⟨[], 0, ()⟩ ⟨[], 0, ()⟩ 2 (1 / 20) : AIPW (LinEst Unit ℚ) (LinEst Unit ℚ) ℚ).covDim ∧
    LinGen.demo.gamma.length ≠ (AIPW.new 2 ⟨[], 0, ()⟩ ⟨[], 0, ()⟩ 2 (1 / 20) : AIPW (LinEst Unit ℚ) (LinEst Unit ℚ) ℚ).covDim := by
  decide +kernel

example : (BinLin.fit (LinEst.predictor id (demoFit 1) id) (Obs.dataset 1 AIPW.demoUnits) (BinLin.new ⟨[], 0, ()⟩ 1)).2.hasBeenFit = true ∧
    BinLin.score (LinEst.predictor id (demoFit 1) id)
      (BinLin.setToTruth (.linear LinGen.demo) (BinLin.fit (LinEst.predictor id (demoFit 1) id) (Obs.dataset 1 AIPW.demoUnits) (BinLin.new ⟨[], 0, ()⟩ 1)).2).2
      (Obs.dataset 1 (AIPW.demoUnits.take 2)) = .ok [.fin 10, .fin 10] := by decide +kernel

end Verif
