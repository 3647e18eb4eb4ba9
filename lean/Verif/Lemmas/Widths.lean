import Verif.Model.ParametersReal
import Verif.Lemmas.Parameters
import Mathlib.Analysis.Matrix.PosDef
import Mathlib.Analysis.Matrix.Spectrum
import Mathlib.LinearAlgebra.Matrix.PosDef

/-!
# Lemmas about the matrices in `calculate_cs_width`
-/

set_option linter.unusedSectionVars false
set_option linter.unusedSimpArgs false

namespace Verif
open Param Matrix

namespace Widths

theorem gram_posSemidef (rows : List (List ℝ)) (d : Nat) : (gram rows d).PosSemidef := by
  have := Matrix.posSemidef_conjTranspose_mul_self (mat rows d)
  rwa [Matrix.conjTranspose_eq_transpose_of_trivial] at this

variable {d : Nat}

theorem det_shift {B : Matrix (Fin d) (Fin d) ℝ} (hB : B.IsHermitian) (c : ℝ) :
    (B + c • (1 : Matrix (Fin d) (Fin d) ℝ)).det = ∏ i, (c + hB.eigenvalues i) := by
  have h := Matrix.eval_charpoly B (-c)
  rw [hB.charpoly_eq, Polynomial.eval_prod] at h
  simp only [Polynomial.eval_sub, Polynomial.eval_X, Polynomial.eval_C, RCLike.ofReal_real_eq_id, id_eq] at h
  have e : B + c • (1 : Matrix (Fin d) (Fin d) ℝ) = -(Matrix.scalar (Fin d) (-c) - B) := by
    rw [Matrix.scalar_apply, ← Matrix.smul_one_eq_diagonal]
    rw [neg_smul]
    abel
  rw [e, Matrix.det_neg, ← h, Fintype.card_fin]
  have : ((-1 : ℝ) ^ d) = ∏ _i : Fin d, (-1 : ℝ) := by simp
  rw [this, ← Finset.prod_mul_distrib]
  apply Finset.prod_congr rfl
  intro i _
  ring

theorem smul_posSemidef {v : Matrix (Fin d) (Fin d) ℝ} (hv : v.PosSemidef) {g : ℝ} (hg : 0 ≤ g) : (g • v).PosSemidef :=
  hv.smul hg

theorem det_ge {v : Matrix (Fin d) (Fin d) ℝ} (hv : v.PosSemidef) {g rho : ℝ} (hg : 0 < g) (hr : 0 < rho) :
    rho ^ d ≤ (g • v + rho • (1 : Matrix (Fin d) (Fin d) ℝ)).det := by
  have hB := smul_posSemidef hv hg.le
  rw [det_shift hB.1]
  calc rho ^ d = ∏ _i : Fin d, rho := by simp
    _ ≤ _ := Finset.prod_le_prod (fun _ _ => hr.le) (fun i _ => by linarith [hB.eigenvalues_nonneg i])

theorem shift_posDef {v : Matrix (Fin d) (Fin d) ℝ} (hv : v.PosSemidef) {c : ℝ} (hc : 0 < c) :
    (v + c • (1 : Matrix (Fin d) (Fin d) ℝ)).PosDef :=
  Matrix.PosDef.posSemidef_add hv (Matrix.PosDef.one.smul hc)

/-- The matrix whose smallest eigenvalue is used. -/
noncomputable def norm (v : Matrix (Fin d) (Fin d) ℝ) (c : ℝ) : Matrix (Fin d) (Fin d) ℝ :=
  v * (v + c • (1 : Matrix (Fin d) (Fin d) ℝ))⁻¹ * v

theorem norm_posSemidef {v : Matrix (Fin d) (Fin d) ℝ} (hv : v.PosSemidef) {c : ℝ} (hc : 0 < c) : (norm v c).PosSemidef := by
  have h := (shift_posDef hv hc).inv.posSemidef.conjTranspose_mul_mul_same v
  rwa [hv.1.eq] at h

theorem norm_det {v : Matrix (Fin d) (Fin d) ℝ} (hv : v.PosSemidef) {c : ℝ} (hc : 0 < c) : (norm v c).det = 0 ↔ v.det = 0 := by
  have h : ((v + c • (1 : Matrix (Fin d) (Fin d) ℝ))⁻¹).det ≠ 0 := (shift_posDef hv hc).inv.det_pos.ne'
  unfold norm
  rw [Matrix.det_mul, Matrix.det_mul]
  constructor
  · intro e
    rcases mul_eq_zero.mp e with e | e
    · rcases mul_eq_zero.mp e with e | e
      · exact e
      · exact absurd e h
    · exact e
  · intro e; rw [e]; simp

theorem pyMin_fin (l : List ℝ) (hl : l ≠ []) : ∃ m ∈ l, (∀ x ∈ l, m ≤ x) ∧ Fl.pyMin (l.map Fl.fin) = .ok (.fin m) := by
  obtain ⟨a, l, rfl⟩ := List.exists_cons_of_ne_nil hl
  simp only [List.map_cons, Fl.pyMin]
  clear hl
  induction l generalizing a with
  | nil => exact ⟨a, by simp, by simp, rfl⟩
  | cons b l ih =>
    simp only [List.map_cons, List.foldl_cons]
    by_cases hba : b < a
    · obtain ⟨m, hm, hle, e⟩ := ih b
      refine ⟨m, List.mem_cons_of_mem _ hm, ?_, ?_⟩
      · intro x hx
        rcases List.mem_cons.mp hx with rfl | hx
        · exact (hle b (by simp)).trans hba.le
        · exact hle x hx
      · rw [← e]; simp [Fl.minStep, Fl.lt, hba]
    · obtain ⟨m, hm, hle, e⟩ := ih a
      refine ⟨m, ?_, ?_, ?_⟩
      · rcases List.mem_cons.mp hm with rfl | hm
        · simp
        · simp [hm]
      · intro x hx
        rcases List.mem_cons.mp hx with rfl | hx
        · exact hle _ (by simp)
        · rcases List.mem_cons.mp hx with rfl | hx
          · exact (hle a (by simp)).trans (not_lt.mp hba)
          · exact hle x (by simp [hx])
      · rw [← e]; simp [Fl.minStep, Fl.lt, hba]

/-- The radius before dividing by the smallest eigenvalue. -/
noncomputable def radius (v : Matrix (Fin d) (Fin d) ℝ) (delta g rho : ℝ) : ℝ :=
  Real.sqrt (g * Real.log ((g • v + rho • (1 : Matrix (Fin d) (Fin d) ℝ)).det / (rho ^ d * delta ^ 2)))

theorem radius_pos {v : Matrix (Fin d) (Fin d) ℝ} (hv : v.PosSemidef) {delta g rho : ℝ} (hg : 0 < g) (hr : 0 < rho)
    (hd : 0 < delta) (hd1 : delta < 1) : 0 < radius v delta g rho := by
  have h1 := det_ge hv hg hr
  have hp : 0 < rho ^ d := pow_pos hr d
  have hd2 : delta ^ 2 < 1 := by nlinarith
  have hlt : 1 < (g • v + rho • (1 : Matrix (Fin d) (Fin d) ℝ)).det / (rho ^ d * delta ^ 2) := by
    rw [one_lt_div (by positivity)]
    nlinarith
  exact Real.sqrt_pos.mpr (mul_pos hg (Real.log_pos hlt))

/-- Everything about `mu_radius`: the guard does not fire, the inverse exists, and the result is
`radius / sqrt(m)` for the smallest eigenvalue `m ≥ 0`, which is zero iff `v` is singular. -/
theorem csMuRadius_eq {v : Matrix (Fin d) (Fin d) ℝ} (hv : v.PosSemidef) {delta g rho : ℝ} (hg : 0 < g) (hr : 0 < rho)
    (hd : 0 < delta) (hd1 : delta < 1) (hdim : 0 < d) :
    ∃ m : ℝ, 0 ≤ m ∧ (m = 0 ↔ v.det = 0) ∧ m ∈ (norm v (rho / g)).charpoly.roots ∧
      (∀ x ∈ (norm v (rho / g)).charpoly.roots, m ≤ x) ∧
      csMuRadius v delta g rho = .ok (some (if m = 0 then .pinf else .fin (radius v delta g rho / Real.sqrt m))) := by
  have hdet := det_ge hv hg hr
  have hp : 0 < rho ^ d := pow_pos hr d
  have hdet0 : 0 < (g • v + rho • (1 : Matrix (Fin d) (Fin d) ℝ)).det := lt_of_lt_of_le hp hdet
  have hc : 0 < rho / g := div_pos hr hg
  have hN := norm_posSemidef hv hc
  have hroots := hN.1.roots_charpoly_eq_eigenvalues
  have hmem : ∀ x, x ∈ (norm v (rho / g)).charpoly.roots ↔ ∃ i, hN.1.eigenvalues i = x := by
    intro x
    rw [hroots]
    simp
  have hne : (norm v (rho / g)).charpoly.roots.toList ≠ [] := by
    intro h
    have := (hmem (hN.1.eigenvalues ⟨0, hdim⟩)).mpr ⟨_, rfl⟩
    rw [← Multiset.mem_toList, h] at this
    cases this
  obtain ⟨m, hm, hle, emin⟩ := pyMin_fin _ hne
  rw [Multiset.mem_toList] at hm
  have hle' : ∀ x ∈ (norm v (rho / g)).charpoly.roots, m ≤ x := fun x hx => hle x (Multiset.mem_toList.mpr hx)
  have hm0 : 0 ≤ m := by
    obtain ⟨i, hi⟩ := (hmem m).mp hm
    rw [← hi]; exact hN.eigenvalues_nonneg i
  have hmdet : m = 0 ↔ v.det = 0 := by
    rw [← norm_det hv hc, hN.1.det_eq_prod_eigenvalues, Finset.prod_eq_zero_iff]
    constructor
    · intro h
      obtain ⟨i, hi⟩ := (hmem m).mp hm
      exact ⟨i, Finset.mem_univ _, by rw [hi, h]; simp⟩
    · rintro ⟨i, -, hi⟩
      have h0 : hN.1.eigenvalues i = 0 := by simpa using hi
      have := hle' _ ((hmem _).mpr ⟨i, rfl⟩)
      rw [h0] at this
      exact le_antisymm this hm0
  have hnum : csNumerator v g rho = .fin (g * Real.log (g • v + rho • (1 : Matrix (Fin d) (Fin d) ℝ)).det) := by
    simp only [csNumerator, Fl.realLog, if_neg (not_lt.mpr hdet0.le), if_neg hdet0.ne', Fl.mul]
  have hdpos : 0 < rho ^ d * delta ^ 2 := by positivity
  have hden : csDenominator d delta g rho = .fin (g * Real.log (rho ^ d * delta ^ 2)) := by
    simp only [csDenominator, Fl.realLog, if_neg (not_lt.mpr hdpos.le), if_neg hdpos.ne', Fl.mul]
  have hd2 : delta ^ 2 < 1 := by nlinarith
  have hlog : Real.log (rho ^ d * delta ^ 2) < Real.log (g • v + rho • (1 : Matrix (Fin d) (Fin d) ℝ)).det :=
    Real.log_lt_log hdpos (by nlinarith)
  have hguard : ((csNumerator v g rho).le (csDenominator d delta g rho)) = false := by
    rw [hnum, hden]
    have hlt := mul_lt_mul_of_pos_left hlog hg
    simp [Fl.le, Fl.lt, Fl.eq, not_lt.mpr hlt.le, hlt.ne']
  refine ⟨m, hm0, hmdet, hm, hle', ?_⟩
  unfold csMuRadius
  rw [hguard, if_neg (by simp), if_neg hg.ne']
  dsimp only
  rw [if_neg (shift_posDef hv hc).det_pos.ne']
  have emin' : Fl.pyMin ((v * (v + (rho / g) • (1 : Matrix (Fin d) (Fin d) ℝ))⁻¹ * v).charpoly.roots.toList.map Fl.fin) = .ok (.fin m) := emin
  rw [emin']
  dsimp only
  have hrad : Fl.realSqrt ((csNumerator v g rho).sub (csDenominator d delta g rho)) = .fin (radius v delta g rho) := by
    rw [hnum, hden]
    simp only [Fl.sub, Fl.neg, Fl.add, Fl.realSqrt]
    rw [if_neg (by
      rw [not_lt]
      have := mul_lt_mul_of_pos_left hlog hg
      linarith)]
    congr 1
    unfold radius
    rw [Real.log_div hdet0.ne' hdpos.ne']
    congr 1
    ring
  rw [hrad]
  have hrp := radius_pos hv hg hr hd hd1
  congr 2
  simp only [Fl.realSqrt, if_neg (not_lt.mpr hm0), Fl.div]
  by_cases h0 : m = 0
  · rw [h0]
    simp [Fl.infTimes, hrp, not_lt.mpr hrp.le, hrp.ne']
  · rw [if_neg h0, if_neg (by rw [Real.sqrt_eq_zero hm0]; exact h0)]

end Widths
end Verif
