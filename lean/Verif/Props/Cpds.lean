import Verif.Lemmas.Cpds
import Verif.Lemmas.SCM

/-!
# C72 the CPD helpers of `scm.py`
-/

set_option linter.unusedSectionVars false
set_option linter.unusedSimpArgs false

namespace Verif
namespace Cpds
variable {W α : Type} [Field α] [LinearOrder α]

theorem normalCpd_eq (r : Noise W α) (p : Arr α) (parents : List (Arr α)) (betas : List (Coef α)) (noise : NoiseArg α) (w : W) :
    normalCpd r (p :: parents) betas noise w =
      match total (term (p :: parents) betas) (p :: parents).length with
      | .error e => (.error e, w)
      | .ok t => match t, noise with
        | .d1 x, .uni mean cov => addNormals r x mean cov p.len w
        | .d2 k rows, .multi mean cov => addMvns r (.d2 k rows) mean cov p.len w
        | .d2 _ _, .uni _ _ => (.error .valueError, w)
        | .d1 _, .multi _ _ => (.error .unmodelled, w) := by
  unfold normalCpd total
  simp only [Py.bind_apply, Py.lift_apply, nUnits, bind, Except.bind]
  generalize term (p :: parents) betas 0 = t0
  cases t0 with
  | error e => rfl
  | ok t =>
    dsimp only
    generalize sumFrom (α := α) _ _ _ _ = s
    cases s with
    | error e => rfl
    | ok t => cases t <;> cases noise <;> rfl

/-- **C72** `normal_cpd`, scalar variable: with at least one parent and coefficients of matching shape, value `j` is the
sum over the parents of the parent's row times its coefficient, plus `mean + sqrt(cov)` times standard normal number
`j`. -/
theorem C72_normal_scalar (r : Noise W α) (n : Nat) (ps : List (Arr α × Coef α)) (hne : ps ≠ []) (hfit : ∀ p ∈ ps, ScalarFit n p)
    (mean cov : α) (w : W) :
    normalCpd r (ps.map Prod.fst) (ps.map Prod.snd) (.uni mean cov) w =
      (.ok (.d1 ((List.range n).map fun j => (ps.map (scalarTerm j)).sum + noiseAt r mean cov w j)), afterDraws r.gauss w n) := by
  have ht := total_d1 (term (ps.map Prod.fst) (ps.map Prod.snd)) n ps scalarTerm hne (fun q p hq => by
    have := term_pair ps [] [] q p hq
    simp only [List.append_nil] at this
    rw [this, dotArr_scalar (hfit p (List.mem_of_getElem? hq))])
  obtain ⟨p, ps, rfl⟩ := List.exists_cons_of_ne_nil hne
  rw [List.map_cons, normalCpd_eq]
  simp only [List.map_cons, List.length_cons, List.length_map] at ht ⊢
  rw [ht]
  dsimp only
  rw [scalarFit_len (hfit p (by simp)), addNormals_eq]

/-- **C72** `normal_cpd`, vector variable: component `l` of row `j` is the sum over the parents of the parent's row times
column `l` of its coefficient matrix, plus the noise row `j`. -/
theorem C72_normal_vector (r : Noise W α) (n k : Nat) (ps : List (Arr α × Coef α)) (hne : ps ≠ []) (hfit : ∀ p ∈ ps, VectorFit n k p)
    (mean : List α) (cov : List (List α)) (hk : mean.length = k) (hm : ∀ v, (r.mvn mean cov v).1.length = mean.length) (w : W) :
    normalCpd r (ps.map Prod.fst) (ps.map Prod.snd) (.multi mean cov) w =
      (.ok (.d2 k ((List.range n).map fun j => (List.range k).map fun l =>
        (ps.map (vectorTerm j l)).sum + (nthDraw (r.mvn mean cov) w j).getD l 0)), afterDraws (r.mvn mean cov) w n) := by
  have ht := total_d2 (term (ps.map Prod.fst) (ps.map Prod.snd)) n k ps vectorTerm hne (fun q p hq => by
    have := term_pair ps [] [] q p hq
    simp only [List.append_nil] at this
    rw [this, dotArr_vector (hfit p (List.mem_of_getElem? hq))])
  obtain ⟨p, ps, rfl⟩ := List.exists_cons_of_ne_nil hne
  rw [List.map_cons, normalCpd_eq]
  simp only [List.map_cons, List.length_cons, List.length_map] at ht ⊢
  rw [ht]
  dsimp only
  rw [vectorFit_len (hfit p (by simp)), addMvns_eq r k _ mean cov hk hm]

/-- **C72 (violated)** the documentation asks for one coefficient per parent; further coefficients are ignored. -/
theorem C72_extra_violated (r : Noise W α) (n : Nat) (ps : List (Arr α × Coef α)) (hne : ps ≠ []) (hfit : ∀ p ∈ ps, ScalarFit n p)
    (extra : List (Coef α)) (mean cov : α) (w : W) :
    normalCpd r (ps.map Prod.fst) (ps.map Prod.snd ++ extra) (.uni mean cov) w =
      normalCpd r (ps.map Prod.fst) (ps.map Prod.snd) (.uni mean cov) w := by
  rw [C72_normal_scalar r n ps hne hfit]
  have ht := total_d1 (term (ps.map Prod.fst) (ps.map Prod.snd ++ extra)) n ps scalarTerm hne (fun q p hq => by
    have := term_pair ps [] extra q p hq
    simp only [List.append_nil] at this
    rw [this, dotArr_scalar (hfit p (List.mem_of_getElem? hq))])
  obtain ⟨p, ps, rfl⟩ := List.exists_cons_of_ne_nil hne
  rw [List.map_cons, normalCpd_eq]
  simp only [List.map_cons, List.length_cons, List.length_map] at ht ⊢
  rw [ht]
  dsimp only
  rw [scalarFit_len (hfit p (by simp)), addNormals_eq]

/-- **C72** `normal_cpd` refuses, before drawing anything: no parents or too few coefficients (`IndexError`), and a 2-D
parent whose number of columns differs from the length of its coefficient vector (`ValueError`). -/
theorem C72_normal_refused (r : Noise W α) (n : Nat) (ps : List (Arr α × Coef α)) (hfit : ∀ p ∈ ps, ScalarFit n p)
    (mean cov : α) (w : W) :
    (∀ betas, normalCpd r [] betas (.uni mean cov) w = (.error .indexError, w)) ∧
    (∀ a rest, normalCpd r (ps.map Prod.fst ++ a :: rest) (ps.map Prod.snd) (.uni mean cov) w = (.error .indexError, w)) ∧
    (∀ d rows b rest extra, b.length ≠ d →
      normalCpd r (ps.map Prod.fst ++ .d2 d rows :: rest) (ps.map Prod.snd ++ .vec b :: extra) (.uni mean cov) w = (.error .valueError, w)) := by
  have key : ∀ (e : PyErr) parents betas, ps.length < parents.length →
      (∀ q p, ps[q]? = some p → term parents betas q = dotArr p.1 p.2) → term parents betas ps.length = .error e →
      normalCpd r parents betas (.uni mean cov) w = (.error e, w) := by
    intro e parents betas hlen h1 h2
    have ht := total_d1_error (term parents betas) n ps scalarTerm e (fun q p hq => by
      rw [h1 q p hq, dotArr_scalar (hfit p (List.mem_of_getElem? hq))]) h2 parents.length hlen
    obtain ⟨p, parents, rfl⟩ := List.exists_cons_of_ne_nil (l := parents) (by rintro rfl; simp at hlen)
    rw [normalCpd_eq, ht]
  refine ⟨fun betas => rfl, fun a rest => ?_, fun d rows b rest extra hb => ?_⟩
  · refine key _ _ _ (by simp) (fun q p hq => ?_) (term_missing ps a rest)
    have := term_pair ps (a :: rest) [] q p hq
    simpa using this
  · refine key _ _ _ (by simp) (fun q p hq => term_pair ps _ _ q p hq) ?_
    rw [term_next]
    simp [dotArr, Ne.symm hb]

/-- **C72** `transformed_normal_cpd` with element-wise functions: value `j` is the sum over the parents of the function of
the parent's row times its coefficient, plus noise. -/
theorem C72_transformed (r : Noise W α) (n : Nat) (ps : List ((Arr α × Coef α) × (α → α))) (hne : ps ≠ [])
    (hfit : ∀ p ∈ ps, ScalarFit n p.1) (mean cov : α) (w : W) :
    transformedNormalCpd r (ps.map (·.1.1)) (ps.map (·.1.2)) (ps.map fun p => elementwise p.2) (.uni mean cov) w =
      (.ok (.d1 ((List.range n).map fun j => (ps.map fun p => p.2 (scalarTerm j p.1)).sum + noiseAt r mean cov w j)),
        afterDraws r.gauss w n) := by
  have ht := total_d1 (fnTerm (ps.map (·.1.1)) (ps.map (·.1.2)) (ps.map fun p => elementwise p.2)) n ps (fun j p => p.2 (scalarTerm j p.1)) hne
    (fun q p hq => by
      have := term_pair (ps.map Prod.fst) [] [] q p.1 (by rw [List.getElem?_map, hq]; rfl)
      simp only [List.append_nil, List.map_map, Function.comp_def] at this
      unfold fnTerm
      rw [this, dotArr_scalar (hfit p (List.mem_of_getElem? hq))]
      simp only [item, List.getElem?_map, hq, Option.map_some, bind, Except.bind, elementwise, List.map_map]
      rfl)
  obtain ⟨p, ps, rfl⟩ := List.exists_cons_of_ne_nil hne
  unfold total at ht
  unfold transformedNormalCpd
  simp only [List.map_cons, List.length_cons, List.length_map, ne_eq, not_true_eq_false, if_false, Py.bind_apply, Py.lift_apply, nUnits] at ht ⊢
  simp only [bind, Except.bind] at ht
  generalize fnTerm (α := α) _ _ _ 0 = t0 at ht ⊢
  cases t0 with
  | error e => simp at ht
  | ok t =>
    dsimp only at ht ⊢
    rw [ht]
    dsimp only [flatten]
    rw [scalarFit_len (hfit p (by simp)), addNormals_eq]

/-- **C72** `transformed_normal_cpd` refuses a number of functions that differs from the number of parents. -/
theorem C72_transformed_refused (r : Noise W α) (parents : List (Arr α)) (betas : List (Coef α)) (fns : List (Arr α → Except PyErr (Arr α)))
    (noise : NoiseArg α) (hne : parents ≠ []) (hlen : parents.length ≠ fns.length) (w : W) :
    transformedNormalCpd r parents betas fns noise w = (.error .valueError, w) := by
  obtain ⟨p, parents, rfl⟩ := List.exists_cons_of_ne_nil hne
  unfold transformedNormalCpd
  simp only [Py.bind_apply, Py.lift_apply, nUnits, ne_eq, hlen, not_false_eq_true, if_true, Py.raise_apply]

theorem columnStack_rows (parents : List (Arr α)) (n : Nat) (hne : parents ≠ []) (hlen : ∀ a ∈ parents, a.len = n) :
    ∃ c, SCM.columnStack parents = .ok (.d2 c ((List.range n).map fun j => (parents.map fun a => rowAt a j).flatten)) := by
  obtain ⟨c, hc, c1, c2, c3, c4⟩ := SCM.columnStack_ok parents n hne hlen
  obtain ⟨p, parents, rfl⟩ := List.exists_cons_of_ne_nil hne
  have : ∃ k rows, c = .d2 k rows := by
    simp only [SCM.columnStack] at hc
    split at hc
    · simp at hc
    · exact ⟨_, _, (Except.ok.inj hc).symm⟩
  obtain ⟨k, rows, rfl⟩ := this
  refine ⟨k, ?_⟩
  rw [hc]
  congr 2
  apply List.ext_getElem?
  intro i
  by_cases hi : i < n
  · have h4 : rows[i]? = _ := c4 i hi
    rw [h4]
    simp [hi, rowAt]
  · have h3 : rows.length = n := c3
    rw [List.getElem?_eq_none (by omega), List.getElem?_eq_none (by simp; omega)]

/-- **C72** `structural_equation_with_noise` with a row-wise function, scalar noise: value `j` is the function of the
concatenated rows of the parents, plus noise. -/
theorem C72_equation_scalar (r : Noise W α) (n : Nat) (parents : List (Arr α)) (hne : parents ≠ []) (hlen : ∀ a ∈ parents, a.len = n)
    (g : List α → α) (mean cov : α) (w : W) :
    structuralEquation r parents (rowwise 1 fun z => [g z]) (.uni mean cov) w =
      (.ok (.d1 ((List.range n).map fun j => g ((parents.map fun a => rowAt a j).flatten) + noiseAt r mean cov w j)),
        afterDraws r.gauss w n) := by
  obtain ⟨c, hc⟩ := columnStack_rows parents n hne hlen
  obtain ⟨p, parents, rfl⟩ := List.exists_cons_of_ne_nil hne
  unfold structuralEquation
  simp only [Py.bind_apply, Py.lift_apply, nUnits, hc, rowwise, flatten, List.map_map]
  rw [hlen p (by simp)]
  have : (List.map ((fun z => [g z]) ∘ fun j => (List.map (fun a => rowAt a j) (p :: parents)).flatten) (List.range n)).flatten =
      (List.range n).map fun j => g ((List.map (fun a => rowAt a j) (p :: parents)).flatten) := by
    induction List.range n with
    | nil => rfl
    | cons a l ih => rw [List.map_cons (l := l), List.flatten_cons, ih]; rfl
  rw [this, addNormals_eq]

/-- **C72** the same with vector noise of `k` components. -/
theorem C72_equation_vector (r : Noise W α) (n k : Nat) (parents : List (Arr α)) (hne : parents ≠ []) (hlen : ∀ a ∈ parents, a.len = n)
    (g : List α → Nat → α) (mean : List α) (cov : List (List α)) (hk : mean.length = k)
    (hm : ∀ v, (r.mvn mean cov v).1.length = mean.length) (w : W) :
    structuralEquation r parents (rowwise k fun z => (List.range k).map (g z)) (.multi mean cov) w =
      (.ok (.d2 k ((List.range n).map fun j => (List.range k).map fun l =>
        g ((parents.map fun a => rowAt a j).flatten) l + (nthDraw (r.mvn mean cov) w j).getD l 0)), afterDraws (r.mvn mean cov) w n) := by
  obtain ⟨c, hc⟩ := columnStack_rows parents n hne hlen
  obtain ⟨p, parents, rfl⟩ := List.exists_cons_of_ne_nil hne
  unfold structuralEquation
  simp only [Py.bind_apply, Py.lift_apply, nUnits, hc, rowwise, List.map_map, Function.comp_def]
  rw [hlen p (by simp)]
  exact addMvns_eq r k _ mean cov hk hm n w

/-- **C72** `add_gaussian_noise`: 1-D arrays and arrays with one column get scalar noise and become 1-D; arrays with
`k ≠ 1` columns get vector noise of `k` components, and noise of another dimension is a `ValueError`. -/
theorem C72_noise (r : Noise W α) (n : Nat) (w : W) :
    (∀ (x : Nat → α) mean cov, addGaussianNoise r (.d1 ((List.range n).map x)) (.uni mean cov) w =
      (.ok (.d1 ((List.range n).map fun j => x j + noiseAt r mean cov w j)), afterDraws r.gauss w n)) ∧
    (∀ (x : Nat → α) mean cov, addGaussianNoise r (.d2 1 ((List.range n).map fun j => [x j])) (.uni mean cov) w =
      (.ok (.d1 ((List.range n).map fun j => x j + noiseAt r mean cov w j)), afterDraws r.gauss w n)) ∧
    (∀ k (x : Nat → Nat → α) mean cov, k ≠ 1 → mean.length = k → (∀ v, (r.mvn mean cov v).1.length = mean.length) →
      addGaussianNoise r (.d2 k ((List.range n).map fun j => (List.range k).map (x j))) (.multi mean cov) w =
        (.ok (.d2 k ((List.range n).map fun j => (List.range k).map fun l => x j l + (nthDraw (r.mvn mean cov) w j).getD l 0)),
          afterDraws (r.mvn mean cov) w n)) ∧
    (∀ k rows mean cov, k ≠ 1 → mean.length ≠ k → addGaussianNoise r (.d2 k rows) (.multi mean cov) w = (.error .valueError, w)) := by
  refine ⟨fun x mean cov => ?_, fun x mean cov => ?_, fun k x mean cov hk1 hk hm => ?_, fun k rows mean cov hk1 hk => ?_⟩
  · have := addNormals_eq r x mean cov n w
    simpa [addGaussianNoise] using this
  · have := addNormals_eq r x mean cov n w
    have hfl : ((List.range n).map fun j => [x j]).flatten = (List.range n).map x := by
      induction List.range n with
      | nil => rfl
      | cons a l ih => simp [ih]
    simpa [addGaussianNoise, hfl] using this
  · have := addMvns_eq r k x mean cov hk hm n w
    simpa [addGaussianNoise, hk1, hk] using this
  · simp [addGaussianNoise, hk1, Ne.symm hk, Py.raise_apply]

theorem binomial_eq (r : Noise W α) (hs : ∀ a, 0 ≤ r.sig a ∧ r.sig a ≤ 1) (n : Nat) (f : Nat → α) (w : W) :
    binomial r ((List.range n).map fun j => r.sig (f j)) w =
      (.ok ((List.range n).map fun j => if nthDraw r.unif w j < r.sig (f j) then 1 else 0), afterDraws r.unif w n) := by
  unfold binomial
  rw [if_neg, LinGen.drawN_eq]
  · simp only [List.length_map, List.length_range]
    congr 2
    apply List.ext_getElem <;> simp
  · simp only [List.any_eq_true, List.mem_map, not_exists, not_and, Bool.not_eq_true, decide_eq_false_iff_not]
    rintro q ⟨j, -, rfl⟩
    have := hs (f j)
    push Not
    simpa using this

/-- **C72** `logistic_linear_bernoulli_cpd` with at least one parent: value `j` is 1 when uniform number `j` is below the
logistic function of the sum over the parents of the parent's row times its coefficient, and 0 otherwise. -/
theorem C72_logistic (r : Noise W α) (hs : ∀ a, 0 ≤ r.sig a ∧ r.sig a ≤ 1) (n : Nat) (ps : List (Arr α × Coef α)) (hne : ps ≠ [])
    (hfit : ∀ p ∈ ps, ScalarFit n p) (w : W) :
    logisticLinear r (ps.map Prod.fst) (ps.map Prod.snd) w =
      (.ok (.arr (.d1 ((List.range n).map fun j => if nthDraw r.unif w j < r.sig (ps.map (scalarTerm j)).sum then 1 else 0))),
        afterDraws r.unif w n) := by
  have ht := total_d1 (term (ps.map Prod.fst) (ps.map Prod.snd)) n ps scalarTerm hne (fun q p hq => by
    have := term_pair ps [] [] q p hq
    simp only [List.append_nil] at this
    rw [this, dotArr_scalar (hfit p (List.mem_of_getElem? hq))])
  have hl : linearScore (ps.map Prod.snd) (ps.map Prod.fst) = .ok (.arr (.d1 ((List.range n).map fun j => (ps.map (scalarTerm j)).sum))) := by
    obtain ⟨p, ps, rfl⟩ := List.exists_cons_of_ne_nil hne
    unfold total at ht
    simp only [List.map_cons, List.length_cons, bind, Except.bind, Nat.add_sub_cancel] at ht
    simp only [linearScore, List.map_cons, List.length_map, bind, Except.bind, pure, Except.pure]
    generalize term (α := α) _ _ 0 = t0 at ht ⊢
    cases t0 with
    | error e => simp at ht
    | ok t =>
      dsimp only at ht ⊢
      rw [ht]
  unfold logisticLinear logisticBernoulli
  simp only [Py.bind_apply, Py.lift_apply, hl, List.map_map, Function.comp_def, binomial_eq r hs, Py.pure_apply]

/-- **C72 (violated)** without parents the result is one number, whatever the number of units. -/
theorem C72_no_parents_violated (r : Noise W α) (hs : ∀ a, 0 ≤ r.sig a ∧ r.sig a ≤ 1) (gammas : List (Coef α)) (w : W) :
    ∃ x w', logisticLinear r [] gammas w = (.ok (.num x), w') := by
  have := binomial_eq r hs 1 (fun _ => 0) w
  simp only [List.range_one, List.map_cons, List.map_nil] at this
  unfold logisticLinear logisticBernoulli
  simp only [Py.bind_apply, Py.lift_apply, linearScore, this, Py.pure_apply]
  exact ⟨_, _, rfl⟩

/-! ## Examples -/

/-- A counter as generator; noise `w`, uniform numbers `1/4`, logistic function `1/2`. -/
def demoNoise : Noise Nat ℚ where
  gauss w := (w, w + 1)
  unif w := (1 / 4, w + 1)
  mvn mean _ w := (mean.map fun m => m + w, w + 1)
  sqrt x := x
  sig _ := 1 / 2

/-- Two parents, two units: one with two columns, one 1-D. -/
def demoPairs : List (Arr ℚ × Coef ℚ) := [(.d2 2 [[1, 2], [3, 4]], .vec [10, 1]), (.d1 [5, 6], .num 100)]

example : ∀ p ∈ demoPairs, ScalarFit 2 p := by
  intro p hp
  simp only [demoPairs, List.mem_cons, List.not_mem_nil, or_false] at hp
  rcases hp with rfl | rfl <;> simp [ScalarFit]

example : (normalCpd demoNoise (demoPairs.map Prod.fst) (demoPairs.map Prod.snd) (.uni 0 1) 7).1 = .ok (.d1 [519, 642]) := by
  decide +kernel

example : ∀ p ∈ [((.d2 2 [[1, 2], [3, 4]] : Arr ℚ), Coef.mat 1 [[10], [1]])], VectorFit 2 1 p := by
  intro p hp
  simp only [List.mem_cons, List.not_mem_nil, or_false] at hp
  subst hp
  simp [VectorFit]

example : ∀ v, (demoNoise.mvn [0] [[1]] v).1.length = [(0 : ℚ)].length := fun _ => rfl

example : ∀ a, 0 ≤ demoNoise.sig a ∧ demoNoise.sig a ≤ 1 := fun a => by
  constructor <;> simp only [demoNoise] <;> norm_num

end Cpds
end Verif
