import Verif.Lemmas.Widths
import Verif.Spec.Widths
import Mathlib.LinearAlgebra.Matrix.Charpoly.Eigs
import Mathlib.LinearAlgebra.Matrix.ToLinearEquiv

/-!
# Properties of `calculate_cs_width` (C55, C56)
-/

set_option linter.unusedSectionVars false
set_option linter.unusedSimpArgs false

namespace Verif
open Param Matrix

namespace Widths

theorem list_sum_fin {α : Type} [Field α] {A : Type} (l : List A) (f : A → α) : ∑ i : Fin l.length, f (l.get i) = (l.map f).sum := by
  rw [← List.sum_ofFn]
  congr 1
  conv_rhs => rw [← List.ofFn_get l, List.map_ofFn]
  rfl

theorem gram_eq {α : Type} [Field α] (rows : List (List α)) (d : Nat) : Param.gram rows d = secondMoments rows d := by
  ext i j
  simp only [Param.gram, Matrix.mul_apply, Matrix.transpose_apply, mat, secondMoments, Matrix.of_apply]
  exact list_sum_fin rows (fun r => r.getD i 0 * r.getD j 0)

theorem root_iff {d : Nat} (a : Matrix (Fin d) (Fin d) ℝ) (x : ℝ) :
    x ∈ a.charpoly.roots ↔ ∃ u : Fin d → ℝ, u ≠ 0 ∧ a.mulVec u = x • u := by
  rw [Polynomial.mem_roots a.charpoly_monic.ne_zero, Polynomial.IsRoot, Matrix.eval_charpoly, ← Matrix.exists_mulVec_eq_zero_iff]
  constructor
  · rintro ⟨u, hu, h⟩
    refine ⟨u, hu, ?_⟩
    rw [Matrix.sub_mulVec, sub_eq_zero, Matrix.scalar_apply, ← Matrix.smul_one_eq_diagonal, Matrix.smul_mulVec, Matrix.one_mulVec] at h
    exact h.symm
  · rintro ⟨u, hu, h⟩
    refine ⟨u, hu, ?_⟩
    rw [Matrix.sub_mulVec, sub_eq_zero, Matrix.scalar_apply, ← Matrix.smul_one_eq_diagonal, Matrix.smul_mulVec, Matrix.one_mulVec]
    exact h.symm

/-- `csMuRadius` in the vocabulary of the specification. -/
theorem muRadius {d : Nat} (hdim : 0 < d) (rows : List (List ℝ)) {delta g rho : ℝ} (hg : 0 < g) (hr : 0 < rho)
    (hd : 0 < delta) (hd1 : delta < 1) :
    0 < selfNormalised (secondMoments rows d) delta g rho ∧
    ∃ m : ℝ, 0 ≤ m ∧ (m = 0 ↔ (secondMoments rows d).det = 0) ∧
      IsLeastEigenvalue (secondMoments rows d * (secondMoments rows d + (rho / g) • (1 : Matrix (Fin d) (Fin d) ℝ))⁻¹ * secondMoments rows d) m ∧
      csMuRadius (gram rows d) delta g rho = .ok (some (if m = 0 then .pinf else
        .fin (Real.sqrt (selfNormalised (secondMoments rows d) delta g rho) / Real.sqrt m))) := by
  have hv := gram_posSemidef rows d
  obtain ⟨m, h0, hdet, hm, hle, e⟩ := csMuRadius_eq hv hg hr hd hd1 hdim
  have hp := radius_pos hv hg hr hd hd1
  rw [gram_eq] at *
  refine ⟨Real.sqrt_pos.mp hp, m, h0, hdet, ⟨(root_iff _ _).mp hm, fun x hx => hle x ((root_iff _ _).mpr hx)⟩, e⟩

end Widths

namespace AIPW
variable {M P : Type}

/-- **C55 for AIPW**: with `delta ∈ (0,1)`, `sub_g, rho > 0`, `min_overlap ∈ (0,1]` and at least one covariate
column, for every dataset last passed to `fit`: if the second-moment matrix `V` of the covariates is
regular, the width is the real number `sqrt(selfNormalised V) / sqrt(m) * (1/min_overlap - 1) ≥ 0` where
`m > 0` is the smallest eigenvalue of `V (V + rho/g I)⁻¹ V`; if `V` is singular and `min_overlap < 1/2`, it is
`+inf`.  (In particular the "not enough samples" exit is never taken and nothing raises.) -/
theorem C55_aipw (s : AIPW M P ℝ) (hdim : 0 < s.covDim) (c : Nat) (us : List (Obs ℝ)) (hrec : s.recent = some (Obs.dataset c us))
    (delta g rho : ℝ) (hg : 0 < g) (hr : 0 < rho) (hd : 0 < delta) (hd1 : delta < 1) (hm0 : 0 < s.minOverlap) (hm1 : s.minOverlap ≤ 1) :
    let v := secondMoments (us.map Obs.zv) s.covDim
    (v.det ≠ 0 → ∃ m : ℝ, 0 < m ∧ IsLeastEigenvalue (v * (v + (rho / g) • (1 : Matrix (Fin s.covDim) (Fin s.covDim) ℝ))⁻¹ * v) m ∧
      0 < selfNormalised v delta g rho ∧
      csWidth s (.fin delta) (.fin g) (.fin rho) = .ok (.fin (Real.sqrt (selfNormalised v delta g rho) / Real.sqrt m * (1 / s.minOverlap - 1))) ∧
      0 ≤ Real.sqrt (selfNormalised v delta g rho) / Real.sqrt m * (1 / s.minOverlap - 1)) ∧
    (v.det = 0 → s.minOverlap < 1 / 2 → csWidth s (.fin delta) (.fin g) (.fin rho) = .ok .pinf) := by
  intro v
  obtain ⟨hsn, m, h0, hdet, hleast, e⟩ := Widths.muRadius hdim (us.map Obs.zv) hg hr hd hd1
  have hcov : (Obs.dataset c us).cov = some (.d2 c (us.map Obs.z)) := rfl
  have hrows : (us.map Obs.z).map (·.map Cell.val) = us.map Obs.zv := by rw [List.map_map]; rfl
  have hinv : 1 ≤ 1 / s.minOverlap := by rw [le_div_iff₀ hm0]; linarith
  constructor
  · intro hv
    have hm : m ≠ 0 := fun h => hv (hdet.mp h)
    have hmp : 0 < m := lt_of_le_of_ne h0 (Ne.symm hm)
    refine ⟨m, hmp, hleast, hsn, ?_, mul_nonneg (div_nonneg (Real.sqrt_nonneg _) (Real.sqrt_nonneg _)) (by linarith)⟩
    simp only [csWidth, hrec, hcov, hrows, e, if_neg hm, if_neg hm0.ne', Fl.mul, Fl.add]
    congr 2
    ring
  · intro hv hlt
    have hm : m = 0 := hdet.mpr hv
    have h2 : (0 : ℝ) < 1 / s.minOverlap - 2 := by
      rw [sub_pos, lt_div_iff₀ hm0]; linarith
    simp only [csWidth, hrec, hcov, hrows, e, if_pos hm, if_neg hm0.ne', Fl.mul, Fl.infTimes, if_pos h2, Fl.add]

/-- **C55 is violated for AIPW** with singular second moments (fewer units than columns, say) and
`min_overlap ≥ 1/2`: the width is NaN. -/
theorem C55_aipw_nan_violated (s : AIPW M P ℝ) (hdim : 0 < s.covDim) (c : Nat) (us : List (Obs ℝ)) (hrec : s.recent = some (Obs.dataset c us))
    (delta g rho : ℝ) (hg : 0 < g) (hr : 0 < rho) (hd : 0 < delta) (hd1 : delta < 1) (hm0 : 1 / 2 ≤ s.minOverlap)
    (hv : (secondMoments (us.map Obs.zv) s.covDim).det = 0) :
    csWidth s (.fin delta) (.fin g) (.fin rho) = .ok .nan := by
  obtain ⟨hsn, m, h0, hdet, hleast, e⟩ := Widths.muRadius hdim (us.map Obs.zv) hg hr hd hd1
  have hcov : (Obs.dataset c us).cov = some (.d2 c (us.map Obs.z)) := rfl
  have hrows : (us.map Obs.z).map (·.map Cell.val) = us.map Obs.zv := by rw [List.map_map]; rfl
  have hm : m = 0 := hdet.mpr hv
  have hpos : 0 < s.minOverlap := by linarith
  have h2 : ¬ (0 : ℝ) < 1 / s.minOverlap - 2 := by
    rw [not_lt, sub_nonpos, div_le_iff₀ hpos]; linarith
  simp only [csWidth, hrec, hcov, hrows, e, if_pos hm, if_neg hpos.ne', Fl.mul, Fl.infTimes, if_neg h2]
  split <;> rfl

/-- **C55 is violated before the first fit**: the width raises `AttributeError`. -/
theorem C55_unfit_violated (s : AIPW M P ℝ) (hrec : s.recent = none) (delta g rho : ℝ) :
    csWidth s (.fin delta) (.fin g) (.fin rho) = .error .attributeError := by
  simp only [csWidth, hrec]

end AIPW

namespace FrontDoor
variable {M : Type}

/-- The documented time-uniform boundary after `n` units. -/
theorem boundary (rho delta : ℝ) (n : Nat) (hr : 0 < rho) (hd : 0 < delta) (hd1 : delta < 1) :
    uniformBoundary rho n delta = .ok (if (n : ℝ) ≤ delta ^ 2 / 4 / rho then .pinf else
      .fin (Real.sqrt (1 / (n : ℝ) * (1 / 4 + rho / n) * Real.log (((n : ℝ) / 4 + rho) / (delta ^ 2 * rho))))) ∧
    ((delta ^ 2 / 4 / rho < (n : ℝ)) → 0 < 1 / (n : ℝ) * (1 / 4 + rho / n) * Real.log (((n : ℝ) / 4 + rho) / (delta ^ 2 * rho))) := by
  have hpos : (0 : ℝ) < delta ^ 2 / 4 / rho := by positivity
  have key : (delta ^ 2 / 4 / rho < (n : ℝ)) → 0 < 1 / (n : ℝ) * (1 / 4 + rho / n) ∧ 0 < Real.log (((n : ℝ) / 4 + rho) / (delta ^ 2 * rho)) := by
    intro h
    have hn : (0 : ℝ) < n := hpos.trans h
    refine ⟨by positivity, Real.log_pos ?_⟩
    rw [one_lt_div (by positivity)]
    have : delta ^ 2 < 1 := by nlinarith
    nlinarith
  refine ⟨?_, fun h => mul_pos (key h).1 (key h).2⟩
  unfold uniformBoundary
  rw [if_neg hr.ne']
  by_cases h : (n : ℝ) ≤ delta ^ 2 / 4 / rho
  · rw [if_pos h, if_pos h]
  · rw [if_neg h, if_neg h]
    have hlt := not_le.mp h
    have hn : (0 : ℝ) < n := hpos.trans hlt
    obtain ⟨k1, k2⟩ := key hlt
    have harg : (0 : ℝ) < ((n : ℝ) / 4 + rho) / (delta ^ 2 * rho) := by positivity
    rw [if_neg (by
      rintro (h' | h')
      · rw [h'] at hn; simp at hn
      · exact hd.ne' h')]
    simp only [Fl.realLog, if_neg (not_lt.mpr harg.le), if_neg harg.ne', Fl.mul, Fl.realSqrt, if_neg (not_lt.mpr (mul_pos k1 k2).le)]

/-- **C55 for the front-door parameter**: with `delta ∈ (0,1)`, `sub_g, rho > 0` and `min_overlap ∈ (0,1)`, for
every dataset last passed to `fit`, the width is `mu + t (1/min_overlap - 1) + 2 mu (1/min_overlap - 1)`,
where `mu > 0` is the self-normalised radius of `(X, Z)` at level `delta/3` over the smallest eigenvalue
and `t > 0` the time-uniform boundary at level `delta/9`: a positive real, unless the second moments are
singular or there are at most `(delta/9)²/(4 rho)` units, in which case it is `+inf`. -/
theorem C55_frontdoor (s : FrontDoor M ℝ) (c : Nat) (us : List (Obs ℝ)) (hrec : s.recent = some (Obs.dataset c us))
    (delta g rho : ℝ) (hg : 0 < g) (hr : 0 < rho) (hd : 0 < delta) (hd1 : delta < 1) (hm0 : 0 < s.minOverlap) (hm1 : s.minOverlap < 1) :
    let v := secondMoments (us.map fun u => u.xv :: u.zv) (s.covDim + 1)
    (v.det ≠ 0 → (delta / 3 / 3) ^ 2 / 4 / rho < us.length → ∃ m t : ℝ, 0 < m ∧
      IsLeastEigenvalue (v * (v + (rho / g) • (1 : Matrix (Fin (s.covDim + 1)) (Fin (s.covDim + 1)) ℝ))⁻¹ * v) m ∧
      0 < selfNormalised v (delta / 3) g rho ∧ 0 < t ∧
      t = Real.sqrt (1 / (us.length : ℝ) * (1 / 4 + rho / us.length) * Real.log (((us.length : ℝ) / 4 + rho) / ((delta / 3 / 3) ^ 2 * rho))) ∧
      csWidth s (.fin delta) (.fin g) (.fin rho) = .ok (.fin (
        Real.sqrt (selfNormalised v (delta / 3) g rho) / Real.sqrt m + t * (1 / s.minOverlap - 1) +
        2 * (Real.sqrt (selfNormalised v (delta / 3) g rho) / Real.sqrt m) * (1 / s.minOverlap - 1)))) ∧
    ((v.det = 0 ∨ (us.length : ℝ) ≤ (delta / 3 / 3) ^ 2 / 4 / rho) → csWidth s (.fin delta) (.fin g) (.fin rho) = .ok .pinf) := by
  intro v
  have hd3 : 0 < delta / 3 := by linarith
  have hd3' : delta / 3 < 1 := by linarith
  obtain ⟨hsn, m, h0, hdet, hleast, e⟩ := Widths.muRadius (Nat.succ_pos s.covDim) (us.map fun u => u.xv :: u.zv) hg hr hd3 hd3'
  obtain ⟨b1, b2⟩ := boundary rho (delta / 3 / 3) us.length hr (by linarith) (by linarith)
  have hinv : 0 < 1 / s.minOverlap - 1 := by rw [sub_pos, lt_div_iff₀ hm0]; linarith
  have hstack : cStack (us.map Obs.xv) (Obs.dataset c us) = .ok (us.map fun u => u.xv :: u.zv) := Obs.dataset_cStack c us Obs.xv
  constructor
  · intro hv hn
    have hm : m ≠ 0 := fun h => hv (hdet.mp h)
    have hmp : 0 < m := lt_of_le_of_ne h0 (Ne.symm hm)
    refine ⟨m, _, hmp, hleast, hsn, Real.sqrt_pos.mpr (b2 hn), rfl, ?_⟩
    rw [if_neg (not_le.mpr hn)] at b1
    simp only [csWidth, hrec, Obs.dataset_exp, Obs.vals_x, hstack, e, if_neg hm, if_neg hm0.ne', List.length_map, b1, Fl.mul, Fl.add]
    congr 2
    ring
  · intro hor
    simp only [csWidth, hrec, Obs.dataset_exp, Obs.vals_x, hstack, e, if_neg hm0.ne', List.length_map, b1]
    by_cases hm : m = 0
    · simp only [if_pos hm]
      have h2 : (0 : ℝ) < 2 := by norm_num
      split <;> simp only [Fl.mul, Fl.infTimes, if_pos hinv, if_pos h2, Fl.add]
    · simp only [if_neg hm]
      have hn : (us.length : ℝ) ≤ (delta / 3 / 3) ^ 2 / 4 / rho := hor.resolve_left fun h => hm (hdet.mpr h)
      simp only [if_pos hn, Fl.mul, Fl.infTimes, if_pos hinv, Fl.add]

/-- **C55 is violated for the front-door parameter** with `min_overlap = 1`: with singular second moments or
too few units the width is NaN. -/
theorem C55_frontdoor_nan_violated (s : FrontDoor M ℝ) (c : Nat) (us : List (Obs ℝ)) (hrec : s.recent = some (Obs.dataset c us))
    (delta g rho : ℝ) (hg : 0 < g) (hr : 0 < rho) (hd : 0 < delta) (hd1 : delta < 1) (hm1 : s.minOverlap = 1)
    (hv : (secondMoments (us.map fun u => u.xv :: u.zv) (s.covDim + 1)).det = 0 ∨ (us.length : ℝ) ≤ (delta / 3 / 3) ^ 2 / 4 / rho) :
    csWidth s (.fin delta) (.fin g) (.fin rho) = .ok .nan := by
  have hd3 : 0 < delta / 3 := by linarith
  have hd3' : delta / 3 < 1 := by linarith
  obtain ⟨hsn, m, h0, hdet, hleast, e⟩ := Widths.muRadius (Nat.succ_pos s.covDim) (us.map fun u => u.xv :: u.zv) hg hr hd3 hd3'
  obtain ⟨b1, b2⟩ := boundary rho (delta / 3 / 3) us.length hr (by linarith) (by linarith)
  have hstack : cStack (us.map Obs.xv) (Obs.dataset c us) = .ok (us.map fun u => u.xv :: u.zv) := Obs.dataset_cStack c us Obs.xv
  simp only [csWidth, hrec, Obs.dataset_exp, Obs.vals_x, hstack, e, List.length_map, b1, hm1, one_ne_zero, if_false, div_one, sub_self]
  by_cases hm : m = 0
  · simp only [if_pos hm]
    split <;> simp [Fl.mul, Fl.infTimes, Fl.add]
  · simp only [if_neg hm]
    have hn : (us.length : ℝ) ≤ (delta / 3 / 3) ^ 2 / 4 / rho := hv.resolve_left fun h => hm (hdet.mpr h)
    simp [if_pos hn, Fl.mul, Fl.infTimes, Fl.add]

/-- **C56 is violated**: the front-door width does not depend on the fitted `TabularCPD` at all, and on the
dataset only through the number of units and the second moments of `(X, Z)` — two parameters with
tables of any two support sizes have the same width. -/
theorem C56_support_ignored_violated (s s' : FrontDoor M ℝ) (c : Nat) (us us' : List (Obs ℝ))
    (hrec : s.recent = some (Obs.dataset c us)) (hrec' : s'.recent = some (Obs.dataset c us'))
    (hdim : s'.covDim = s.covDim) (hmo : s'.minOverlap = s.minOverlap) (hlen : us'.length = us.length)
    (hv : secondMoments (us'.map fun u => u.xv :: u.zv) (s.covDim + 1) = secondMoments (us.map fun u => u.xv :: u.zv) (s.covDim + 1))
    (delta g rho : ℝ) :
    csWidth s' (.fin delta) (.fin g) (.fin rho) = csWidth s (.fin delta) (.fin g) (.fin rho) := by
  have hstack : ∀ us, cStack (us.map Obs.xv) (Obs.dataset c us) = .ok (us.map fun u : Obs ℝ => u.xv :: u.zv) := fun us => Obs.dataset_cStack c us Obs.xv
  obtain ⟨dim', mo', n', r', f', rec', y', t', q'⟩ := s'
  obtain rfl : dim' = s.covDim := hdim
  obtain rfl : mo' = s.minOverlap := hmo
  have hrec2 : rec' = some (Obs.dataset c us') := hrec'
  simp only [csWidth, hrec, hrec2, Obs.dataset_exp, Obs.vals_x, hstack, List.length_map, hlen, Widths.gram_eq, hv]

/-! ## Concrete cases -/

/-- Three units whose exposures and covariates have regular second moments. -/
def widthUnits : List (Obs ℝ) := [⟨[.int 1], .int 1, .flt 3⟩, ⟨[.int 2], .int 0, .flt 1⟩, ⟨[.int 1], .int 0, .flt 2⟩]

example : (secondMoments (widthUnits.map Obs.zv) 1).det ≠ 0 ∧
    (secondMoments (widthUnits.map fun u => u.xv :: u.zv) 2).det ≠ 0 ∧ ((1 / 20 : ℝ) / 3 / 3) ^ 2 / 4 / 1 < (widthUnits.length : ℝ) := by
  refine ⟨?_, ?_, ?_⟩
  · simp [secondMoments, widthUnits, Obs.zv, Cell.val]
    norm_num
  · simp [secondMoments, widthUnits, Obs.zv, Obs.xv, Cell.val, Matrix.det_fin_two]
    norm_num
  · simp [widthUnits]; norm_num

/-- One unit and two columns: singular second moments. -/
example : (secondMoments (([⟨[.int 1], .int 1, .flt 3⟩] : List (Obs ℝ)).map fun u => u.xv :: u.zv) 2).det = 0 := by
  simp [secondMoments, Obs.zv, Obs.xv, Cell.val, Matrix.det_fin_two]

/-- C56: same number of units and same second moments, but one and two distinct covariate values. -/
example :
    let us : List (Obs ℝ) := [⟨[.int 1], .int 1, .flt 0⟩, ⟨[.int 1], .int 1, .flt 0⟩, ⟨[.int 1], .int 0, .flt 0⟩, ⟨[.int 1], .int 0, .flt 0⟩]
    let us' : List (Obs ℝ) := [⟨[.int 2], .int 1, .flt 0⟩, ⟨[.int 0], .int 1, .flt 0⟩, ⟨[.int 0], .int 0, .flt 0⟩, ⟨[.int 0], .int 0, .flt 0⟩]
    us'.length = us.length ∧
    secondMoments (us'.map fun u => u.xv :: u.zv) 2 = secondMoments (us.map fun u => u.xv :: u.zv) 2 := by
  refine ⟨rfl, ?_⟩
  ext i j
  fin_cases i <;> fin_cases j <;> simp [secondMoments, Obs.zv, Obs.xv, Cell.val] <;> norm_num

end FrontDoor
end Verif
