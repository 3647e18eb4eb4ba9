import Verif.Props.ExampleScm
import Mathlib.Tactic.NormNum

/-!
# C65 the generated data follow the law used for the statistics
-/

set_option linter.unusedSectionVars false
set_option linter.unusedSimpArgs false

namespace Verif
namespace Example
variable {W : Type}

theorem drawN_length (f : W → ℝ × W) (n : Nat) (w : W) : (drawN f n w).1.length = n := by
  induction n generalizing w with
  | zero => rfl
  | succ n ih => simp [drawN, ih]

theorem binomial_ok (r : Rng W) (qs : List ℝ) (w : W) (h : ∀ q ∈ qs, 0 ≤ q ∧ q ≤ 1) :
    binomial r qs w = (.ok (.d1 (List.zipWith (fun u q => bit q u) (drawN r.unif qs.length w).1 qs)), (drawN r.unif qs.length w).2) := by
  unfold binomial
  rw [if_neg]
  · rfl
  · simp only [List.any_eq_true, decide_eq_true_eq, not_exists, not_and, not_or, not_lt]
    exact h

theorem zipWith_replicate_right {A B C : Type} (f : A → B → C) (l : List A) (b : B) :
    List.zipWith f l (List.replicate l.length b) = l.map fun a => f a b := by
  induction l with
  | nil => rfl
  | cons a l ih => simp [List.replicate_succ, ih]

theorem zipWith_flip_map {A B C D : Type} (f : A → B → C) (h : D → B) (l : List A) (l' : List D) :
    List.zipWith f l (l'.map h) = List.zipWith (fun d a => f a (h d)) l' l := by
  rw [List.zipWith_map_right, List.zipWith_comm]

/-- The data of the back-door example as a function of the random numbers of each unit. -/
noncomputable def backDoorData (p beta alpha : ℝ) (us vs es : List ℝ) : Sample ℝ where
  cov := .d2 1 (us.map fun u => [bZ p u])
  exp := .d1 (List.zipWith (fun u v => bX p alpha u v) us vs)
  rsp := .d1 (List.zipWith (fun uv e => bY p beta uv.1 (bX p alpha uv.1 uv.2) e) (us.zip vs) es)

/-- **C65** `back_door_scm` builds an SCM, and for every state of the generator its data are those of units with
independent random numbers following the structural equations used by the statistics: one uniform number for `Z`, one
for `X` and a normal number for `Y` per unit. -/
theorem C65_backdoor_sampler (r : Rng W) (p beta alpha : ℝ) (hp : 0 ≤ p ∧ p ≤ 1) (ha : 0 ≤ 1 / 2 + alpha ∧ 1 / 2 + alpha ≤ 1) :
    ∃ S, backDoorScm r p beta alpha = .ok S ∧ ∀ n w, ∃ us vs es w1 w2 w3,
      drawN r.unif n w = (us, w1) ∧ drawN r.unif n w1 = (vs, w2) ∧ drawN r.gauss n w2 = (es, w3) ∧
      S.generate n w = (.ok (backDoorData p beta alpha us vs es), w3) := by
  refine ⟨_, rfl, fun n w => ⟨_, _, _, _, _, _, rfl, rfl, rfl, ?_⟩⟩
  have lu := drawN_length r.unif n w
  generalize hu : drawN r.unif n w = d1 at *
  obtain ⟨us, w1⟩ := d1
  simp only at *
  have lv := drawN_length r.unif n w1
  generalize hv : drawN r.unif n w1 = d2 at *
  obtain ⟨vs, w2⟩ := d2
  simp only at *
  have le := drawN_length r.gauss n w2
  generalize he : drawN r.gauss n w2 = d3 at *
  obtain ⟨es, w3⟩ := d3
  simp only at *
  have hz : binomial r (List.replicate n p) w = (.ok (.d1 (us.map fun u => bZ p u)), w1) := by
    rw [binomial_ok]
    · rw [List.length_replicate, hu]
      simp only
      rw [← lu, zipWith_replicate_right]
      rfl
    · intro q hq; rw [List.eq_of_mem_replicate hq]; exact hp
  have hx : binomial r ((us.map fun u => bZ p u).map fun t => 1 / 2 + alpha * t) w1 =
      (.ok (.d1 (List.zipWith (fun u v => bX p alpha u v) us vs)), w2) := by
    rw [binomial_ok]
    · rw [List.length_map, List.length_map, lu, hv, List.map_map]
      simp only
      rw [zipWith_flip_map]
      rfl
    · intro q hq
      rw [List.map_map] at hq
      obtain ⟨u, -, rfl⟩ := List.mem_map.mp hq
      simp only [Function.comp, bZ, bit]
      split <;> constructor <;> linarith
  unfold SCM.generate
  simp only [SCM.sampleLoop, Dict.get?, Dict.set, SCM.lookupAll, backDoorCpds, String.reduceEq, if_true, if_false, reduceIte,
    List.any_nil, List.any_cons, Option.isNone_some, Option.isNone_none, Bool.false_eq_true, Bool.or_false, Bool.or_self,
    Except.map, hz, vec, List.getElem?_cons_zero, List.getElem?_cons_succ, hx, linearCpd, List.length_map, lu, he]
  rw [if_pos (by simp [lu, lv, le])]
  simp only [Dict.get?, Dict.set, String.reduceEq, reduceIte, SCM.lookupAll, Except.map, SCM.columnStack, List.any_nil, bind, Except.bind, pure, Except.pure, Bool.false_eq_true, if_false, SCM.asRows,
    List.foldl_nil, List.map_nil, List.map_cons, Arr.nFeatures, List.sum_cons, List.sum_nil]
  unfold backDoorData
  congr 3
  · simp
  · congr 1
    apply List.ext_getElem
    · simp [lu, lv, le]
    · intro i h1 h2
      simp [bY, bZ]
      ring

/-- The data of the front-door example as a function of the random numbers of each unit. -/
noncomputable def frontDoorData (p beta gamma alpha1 alpha2 : ℝ) (us vs ts es : List ℝ) : Sample ℝ where
  cov := .d2 2 (List.zipWith (fun uv t => [fU p uv.1, fZ beta (fX p alpha1 uv.1 uv.2) t]) (us.zip vs) ts)
  exp := .d1 (List.zipWith (fun u v => fX p alpha1 u v) us vs)
  rsp := .d1 (List.zipWith (fun uvt e => fY p gamma alpha2 uvt.1.1 (fZ beta (fX p alpha1 uvt.1.1 uvt.1.2) uvt.2) e) ((us.zip vs).zip ts) es)

/-- **C65** `frontdoor_scm` builds an SCM, and for every state of the generator its data are those of units following
the structural equations used by the statistics, with fresh random numbers for every variable of every unit. -/
theorem C65_frontdoor_sampler (r : Rng W) (p beta gamma alpha1 alpha2 : ℝ) (hp : 0 ≤ p ∧ p ≤ 1) :
    ∃ S, frontDoorScm r p beta gamma alpha1 alpha2 = .ok S ∧ ∀ n w, ∃ us vs ts es w1 w2 w3 w4,
      drawN r.unif n w = (us, w1) ∧ drawN r.unif n w1 = (vs, w2) ∧ drawN r.unif n w2 = (ts, w3) ∧ drawN r.gauss n w3 = (es, w4) ∧
      S.generate n w = (.ok (frontDoorData p beta gamma alpha1 alpha2 us vs ts es), w4) := by
  refine ⟨_, rfl, fun n w => ⟨_, _, _, _, _, _, _, _, rfl, rfl, rfl, rfl, ?_⟩⟩
  have lu := drawN_length r.unif n w
  generalize hu : drawN r.unif n w = d1 at *
  obtain ⟨us, w1⟩ := d1
  simp only at *
  have lv := drawN_length r.unif n w1
  generalize hv : drawN r.unif n w1 = d2 at *
  obtain ⟨vs, w2⟩ := d2
  simp only at *
  have lt := drawN_length r.unif n w2
  generalize ht : drawN r.unif n w2 = d3 at *
  obtain ⟨ts, w3⟩ := d3
  simp only at *
  have le := drawN_length r.gauss n w3
  generalize he : drawN r.gauss n w3 = d4 at *
  obtain ⟨es, w4⟩ := d4
  simp only at *
  have hg : ∀ (c : ℝ) (l : List ℝ), ∀ q ∈ l.map (fun t => g (c * t)), 0 ≤ q ∧ q ≤ 1 := by
    intro c l q hq
    obtain ⟨t, -, rfl⟩ := List.mem_map.mp hq
    exact ⟨(logistic_mem _).1.le, (logistic_mem _).2.le⟩
  have hz : binomial r (List.replicate n p) w = (.ok (.d1 (us.map fun u => fU p u)), w1) := by
    rw [binomial_ok]
    · rw [List.length_replicate, hu]
      simp only
      rw [← lu, zipWith_replicate_right]
      rfl
    · intro q hq; rw [List.eq_of_mem_replicate hq]; exact hp
  have hx : binomial r ((us.map fun u => fU p u).map fun t => g (alpha1 * t)) w1 =
      (.ok (.d1 (List.zipWith (fun u v => fX p alpha1 u v) us vs)), w2) := by
    rw [binomial_ok _ _ _ (hg _ _)]
    rw [List.length_map, List.length_map, lu, hv, List.map_map]
    simp only
    rw [zipWith_flip_map]
    rfl
  have hzz : binomial r ((List.zipWith (fun u v => fX p alpha1 u v) us vs).map fun t => g (beta * t)) w2 =
      (.ok (.d1 (List.zipWith (fun uv t => fZ beta (fX p alpha1 uv.1 uv.2) t) (us.zip vs) ts)), w3) := by
    rw [binomial_ok _ _ _ (hg _ _)]
    rw [List.length_map, List.length_zipWith, lu, lv, min_self, ht]
    simp only
    congr 3
    apply List.ext_getElem
    · simp [lu, lv, lt]
    · intro i h1 h2
      simp [fZ, g_eq]
  unfold SCM.generate
  simp only [SCM.sampleLoop, Dict.get?, Dict.set, SCM.lookupAll, frontDoorCpds, String.reduceEq, if_true, if_false, reduceIte,
    List.any_nil, List.any_cons, Option.isNone_some, Option.isNone_none, Bool.false_eq_true, Bool.or_false, Bool.or_self,
    Except.map, hz, vec, List.getElem?_cons_zero, List.getElem?_cons_succ, logisticCpd, hx, linearCpd, List.length_map,
    List.length_zipWith, List.length_zip, min_self, lu, lv, lt, le, hzz, he, and_self]
  simp only [SCM.columnStack, List.any_nil, List.any_cons, bind, Except.bind, pure, Except.pure, Bool.false_eq_true, if_false, SCM.asRows,
    List.foldl_nil, List.foldl_cons, List.map_nil, List.map_cons, Arr.nFeatures, List.sum_cons, List.sum_nil, Arr.len,
    List.length_map, List.length_zipWith, List.length_zip, lu, lv, lt, min_self, ne_eq, not_true_eq_false, decide_false, Bool.or_false]
  unfold frontDoorData
  congr 3
  · congr 1
    apply List.ext_getElem
    · simp [SCM.hcat, lu, lv, lt, le]
    · intro i h1 h2
      simp [SCM.hcat]
  · congr 1
    apply List.ext_getElem
    · simp [lu, lv, lt, le]
    · intro i h1 h2
      simp [fY]
      ring

/-- The middle of the ranges used by the code satisfies all hypotheses of the theorems on the back-door example. -/
example : (0 ≤ (1 / 2 : ℝ) ∧ (1 / 2 : ℝ) ≤ 1) ∧ (0 ≤ 1 / 2 + (1 / 10 : ℝ) ∧ 1 / 2 + (1 / 10 : ℝ) ≤ 1) ∧
    (backDoorStats (1 / 2) 1 (1 / 10)).varY = 26 ∧
    V2 (fun u v e => bY (1 / 2) 1 u (bX (1 / 2) (1 / 10) u v) e) = 26 + 1 / 2 := by
  refine ⟨by norm_num, by norm_num, ?_, ?_⟩
  · simp only [backDoorStats]; norm_num
  · rw [(C65_backdoor_variance_violated (1 / 2) 1 (1 / 10) (by norm_num) (by norm_num)).1]
    simp only [backDoorStats]; norm_num

/-- A generator: the state counts the numbers drawn. -/
example : drawN (fun w : ℕ => ((w : ℝ) / 2, w + 1)) 2 0 = ([0, 1 / 2], 2) := by
  simp [drawN]

end Example
end Verif
