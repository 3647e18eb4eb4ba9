import Verif.Model.PaperCpds
import Verif.Spec.PaperCpds
import Mathlib.Analysis.SpecialFunctions.Log.Basic
import Mathlib.Tactic.FieldSimp
import Mathlib.Tactic.Linarith
import Mathlib.Tactic.Ring
import Mathlib.Tactic.NormNum

/-!
# C62 softmax is a probability vector; C61 the selection of the effect
-/

set_option linter.unusedSectionVars false
set_option linter.unusedSimpArgs false

namespace Verif
namespace Paper
variable {W : Type}

/-! ## C62 -/

theorem sum_exp_pos {x : List ℝ} (h : x ≠ []) : 0 < (x.map Real.exp).sum := by
  cases x with
  | nil => exact absurd rfl h
  | cons a l =>
    rw [List.map_cons, List.sum_cons]
    have : 0 ≤ (l.map Real.exp).sum := List.sum_nonneg (by
      intro t ht
      obtain ⟨u, -, rfl⟩ := List.mem_map.mp ht
      exact (Real.exp_pos u).le)
    linarith [Real.exp_pos a]

theorem softmax_eq {x : List ℝ} (h : x ≠ []) : softmax x = .ok (gibbs x) := by
  obtain ⟨a, l, rfl⟩ := List.exists_cons_of_ne_nil h
  simp only [softmax, npMax, bind, Except.bind, pure, Except.pure]
  generalize l.foldl max a = m
  generalize hx : a :: l = x at *
  have hs : (x.map fun t => Real.exp (t - m)).sum = (x.map Real.exp).sum * Real.exp (-m) := by
    rw [← List.sum_map_mul_right]
    congr 1
    refine List.map_congr_left fun t _ => ?_
    rw [sub_eq_add_neg, Real.exp_add]
  rw [hs]
  unfold gibbs
  rw [List.map_map]
  congr 1
  refine List.map_congr_left fun t _ => ?_
  have h1 := (sum_exp_pos h).ne'
  have h2 := (Real.exp_pos (-m)).ne'
  simp only [Function.comp]
  rw [sub_eq_add_neg, Real.exp_add]
  field_simp

theorem gibbs_sum {x : List ℝ} (h : x ≠ []) : (gibbs x).sum = 1 := by
  unfold gibbs
  simp only [div_eq_mul_inv]
  rw [List.sum_map_mul_right]
  exact mul_inv_cancel₀ (sum_exp_pos h).ne'

/-- **C62** The softmax of a non-empty vector is the textbook one: as many entries, all positive, summing to one, in
the order of the inputs (strictly), and unchanged by adding a constant to all inputs. -/
theorem C62_softmax (x : List ℝ) (h : x ≠ []) : ∃ p, softmax x = .ok p ∧ p = gibbs x ∧ p.length = x.length ∧
    (∀ t ∈ p, 0 < t) ∧ p.sum = 1 ∧
    (∀ i j (hi : i < x.length) (hj : j < x.length) (hi' : i < p.length) (hj' : j < p.length), p[i] < p[j] ↔ x[i] < x[j]) ∧
    ∀ c, softmax (x.map (· + c)) = .ok p := by
  refine ⟨gibbs x, softmax_eq h, rfl, by simp [gibbs], ?_, gibbs_sum h, ?_, ?_⟩
  · intro t ht
    obtain ⟨u, -, rfl⟩ := List.mem_map.mp ht
    exact div_pos (Real.exp_pos u) (sum_exp_pos h)
  · intro i j hi hj hi' hj'
    simp only [gibbs, List.getElem_map]
    rw [div_lt_div_iff_of_pos_right (sum_exp_pos h), Real.exp_lt_exp]
  · intro c
    rw [softmax_eq (by simpa using h)]
    congr 1
    unfold gibbs
    rw [List.map_map]
    refine List.map_congr_left fun t _ => ?_
    have hs : ((x.map (· + c)).map Real.exp).sum = (x.map Real.exp).sum * Real.exp c := by
      rw [← List.sum_map_mul_right, List.map_map]
      congr 1
      exact List.map_congr_left fun t _ => Real.exp_add t c
    simp only [Function.comp]
    rw [hs, Real.exp_add, mul_div_mul_right _ _ (Real.exp_pos c).ne']

/-- **C62** The empty vector is refused: `np.max` raises. -/
theorem C62_empty : softmax [] = .error .valueError := rfl

example : ([0, Real.log 3] : List ℝ) ≠ [] ∧ gibbs [0, Real.log 3] = [1 / 4, 3 / 4] := by
  refine ⟨by simp, ?_⟩
  unfold gibbs
  simp [Real.exp_log]
  norm_num

/-! ## C61 -/

theorem vdot_range (d : Nat) (f : Nat → ℝ) (b : List ℝ) (h : b.length = d) :
    List.zipWith (· * ·) ((List.range d).map f) b = (List.range d).map fun j => f j * b.getD j 0 := by
  apply List.ext_getElem
  · simp [h]
  · intro i h1 h2
    simp at h1 h2
    simp [List.getElem_zipWith, List.getD_eq_getElem?_getD, List.getElem?_eq_getElem h1.2]

theorem zipWith_row (r b : List ℝ) (d : Nat) (hr : r.length = d) (hb : b.length = d) :
    (List.zipWith (· * ·) r b).sum = ((List.range d).map fun j => r.getD j 0 * b.getD j 0).sum := by
  congr 1
  apply List.ext_getElem
  · simp [hr, hb]
  · intro i h1 h2
    simp at h1 h2
    simp [List.getElem_zipWith, List.getD_eq_getElem?_getD, List.getElem?_eq_getElem h1.1, List.getElem?_eq_getElem h1.2]

theorem sum_range_mul (d : Nat) (a : ℝ) (f : Nat → ℝ) : a * ((List.range d).map f).sum = ((List.range d).map fun j => a * f j).sum := by
  rw [List.sum_map_mul_left]

theorem meanScore_eq (d : Nat) (s : List (List ℝ)) (b p : List ℝ) (hs : ∀ r ∈ s, r.length = d) (hb : b.length = d) :
    ((List.range d).map fun j => (List.zipWith (fun a r => a * r.getD j 0) p s).sum * b.getD j 0).sum = meanScore s b p := by
  unfold meanScore
  induction p generalizing s with
  | nil => simp
  | cons a p ih =>
    cases s with
    | nil => simp
    | cons r s =>
      simp only [List.zipWith_cons_cons, List.sum_cons, add_mul, List.sum_map_add]
      rw [ih s fun q hq => hs q (List.mem_cons_of_mem _ hq), zipWith_row r b d (hs r (by simp)) hb, sum_range_mul]
      simp only [mul_assoc]

/-- Shapes of the arrays: ten rows of length `d`, and a vector of length `d`. -/
def Z0.WF (z : Z0) : Prop := z.support.length = 10 ∧ (∀ r ∈ z.support, r.length = z.d) ∧ z.beta0.length = z.d

theorem effect_eq {z : Z0} (hz : z.WF) {p0 p1 : List ℝ} (h0 : p0.length = 10) (h1 : p1.length = 10) :
    effect z p0 p1 = .ok (gap z.support z.beta0 (p0, p1)) := by
  obtain ⟨a, b, c⟩ := hz
  have key : ∀ p : List ℝ, p.length = 10 → (do let m ← vecMat p z.d z.support; vdot m z.beta0) = .ok (meanScore z.support z.beta0 p) := by
    intro p hp
    simp only [vecMat, if_pos (hp.trans a.symm), bind, Except.bind, vdot]
    rw [if_pos (by simp [c]), vdot_range _ _ _ c, meanScore_eq z.d _ _ _ b c]
  have e0 := key p0 h0
  have e1 := key p1 h1
  unfold effect
  simp only [bind, Except.bind, pure, Except.pure] at e0 e1 ⊢
  split at e1
  · simp at e1
  · rename_i m1 hm1
    split at e0
    · simp at e0
    · rename_i m0 hm0
      simp only [e1, e0, hm0]
      rfl

theorem worldAfter_succ (normal : Nat → W → List ℝ × W) (k : Nat) (w : W) :
    worldAfter normal (k + 1) w = (normal 10 (worldAfter normal k w)).2 := by
  unfold worldAfter
  rw [Function.iterate_succ_apply']

theorem randomPmf_eq (normal : Nat → W → List ℝ × W) (hn : ∀ n w, (normal n w).1.length = n) (k : Nat) (w : W) :
    randomPmf normal (worldAfter normal k w) =
      (.ok (gibbs ((drawAt normal w k).map fun t => 2 / 5 * t)), worldAfter normal (k + 1) w) := by
  have hd : stdNormal normal supportSize (worldAfter normal k w) = (.ok (drawAt normal w k), worldAfter normal (k + 1) w) := by
    rw [worldAfter_succ]; rfl
  unfold randomPmf
  simp only [Py.bind_apply, Py.lift_apply, hd]
  have := hn 10 (worldAfter normal k w)
  rw [softmax_eq]
  intro he
  rw [List.map_eq_nil_iff] at he
  unfold drawAt at he
  rw [he] at this
  simp at this

theorem pairAt_length (normal : Nat → W → List ℝ × W) (hn : ∀ n w, (normal n w).1.length = n) (k : Nat) (w : W) :
    (pairAt normal w k).1.length = 10 ∧ (pairAt normal w k).2.length = 10 := by
  simp [pairAt, gibbs, drawAt, hn]

theorem candidate_eq (normal : Nat → W → List ℝ × W) (hn : ∀ n w, (normal n w).1.length = n) {z : Z0} (hz : z.WF) (k : Nat) (w : W) :
    candidate normal z (worldAfter normal (2 * k) w) =
      (.ok ((pairAt normal w k).1, (pairAt normal w k).2, tauAt normal z.support z.beta0 w k), worldAfter normal (2 * (k + 1)) w) := by
  unfold candidate
  simp only [Py.bind_apply]
  rw [randomPmf_eq normal hn]
  simp only []
  rw [randomPmf_eq normal hn]
  simp only [Py.lift_apply]
  have hl := pairAt_length normal hn k w
  have := effect_eq hz hl.1 hl.2
  unfold pairAt at this
  rw [this]
  rfl

theorem sampleTaus_eq (normal : Nat → W → List ℝ × W) (hn : ∀ n w, (normal n w).1.length = n) {z : Z0} (hz : z.WF) (w : W)
    (k j : Nat) (s : Sel) : sampleTaus normal z (k + 1) s (worldAfter normal (2 * j) w) =
      (.ok ⟨s.tau, max s.tau (tauAt normal z.support z.beta0 w (j + k)), (pairAt normal w (j + k)).1, (pairAt normal w (j + k)).2⟩,
        worldAfter normal (2 * (j + k + 1)) w) := by
  induction k generalizing j s with
  | zero =>
    unfold sampleTaus
    simp only [Py.bind_apply, candidate_eq normal hn hz]
    rfl
  | succ k ih =>
    rw [sampleTaus]
    simp only [Py.bind_apply, candidate_eq normal hn hz]
    rw [ih (j + 1)]
    simp only [show j + 1 + k = j + (k + 1) by omega]

theorem select_eq (normal : Nat → W → List ℝ × W) (hn : ∀ n w, (normal n w).1.length = n) {z : Z0} (hz : z.WF) (w : W) (fuel : Nat) :
    select normal z fuel w = untilBig normal z fuel
      ⟨0, max 0 (tauAt normal z.support z.beta0 w 9), (pairAt normal w 9).1, (pairAt normal w 9).2⟩ (worldAfter normal (2 * 10) w) := by
  unfold select
  have := sampleTaus_eq normal hn hz w 9 0 ⟨0, 0, [], []⟩
  simp only [Nat.zero_add] at this
  rw [show worldAfter normal (2 * 0) w = w from rfl] at this
  rw [this]

theorem untilBig_step (normal : Nat → W → List ℝ × W) (hn : ∀ n w, (normal n w).1.length = n) {z : Z0} (hz : z.WF) (w : W)
    (fuel k : Nat) (s : Sel) (h : s.tau < s.tauMax) :
    untilBig normal z (fuel + 1) s (worldAfter normal (2 * k) w) = untilBig normal z fuel
      ⟨tauAt normal z.support z.beta0 w k, s.tauMax, (pairAt normal w k).1, (pairAt normal w k).2⟩ (worldAfter normal (2 * (k + 1)) w) := by
  rw [untilBig, if_pos h, candidate_eq normal hn hz]

theorem untilBig_stop (normal : Nat → W → List ℝ × W) (z : Z0) (fuel : Nat) (s : Sel) (w : W) (h : ¬ s.tau < s.tauMax) :
    untilBig normal z fuel s w = some (.ok s, w) := by
  cases fuel <;> simp [untilBig, h]

theorem untilBig_run (normal : Nat → W → List ℝ × W) (hn : ∀ n w, (normal n w).1.length = n) {z : Z0} (hz : z.WF) (w : W)
    (m j fuel : Nat) (s : Sel) (h : s.tau < s.tauMax) (hf : m < fuel)
    (hlt : ∀ i, j ≤ i → i < j + m → tauAt normal z.support z.beta0 w i < s.tauMax)
    (hge : s.tauMax ≤ tauAt normal z.support z.beta0 w (j + m)) :
    untilBig normal z fuel s (worldAfter normal (2 * j) w) =
      some (.ok ⟨tauAt normal z.support z.beta0 w (j + m), s.tauMax, (pairAt normal w (j + m)).1, (pairAt normal w (j + m)).2⟩,
        worldAfter normal (2 * (j + m + 1)) w) := by
  induction m generalizing j fuel s with
  | zero =>
    obtain ⟨f, rfl⟩ : ∃ f, fuel = f + 1 := ⟨fuel - 1, by omega⟩
    rw [untilBig_step normal hn hz w f j s h, untilBig_stop]
    · rfl
    · simpa using hge
  | succ m ih =>
    obtain ⟨f, rfl⟩ : ∃ f, fuel = f + 1 := ⟨fuel - 1, by omega⟩
    rw [untilBig_step normal hn hz w f j s h, ih (j + 1)]
    · simp only [show j + 1 + m = j + (m + 1) by omega]
    · exact hlt j le_rfl (by omega)
    · omega
    · exact fun i h1 h2 => hlt i (by omega) (by omega)
    · simpa only [show j + 1 + m = j + (m + 1) by omega] using hge

theorem untilBig_forever (normal : Nat → W → List ℝ × W) (hn : ∀ n w, (normal n w).1.length = n) {z : Z0} (hz : z.WF) (w : W)
    (fuel j : Nat) (s : Sel) (h : s.tau < s.tauMax) (hlt : ∀ i, j ≤ i → tauAt normal z.support z.beta0 w i < s.tauMax) :
    untilBig normal z fuel s (worldAfter normal (2 * j) w) = none := by
  induction fuel generalizing j s with
  | zero => rw [untilBig, if_pos h]
  | succ f ih =>
    rw [untilBig_step normal hn hz w f j s h]
    exact ih (j + 1) _ (hlt j le_rfl) fun i hi => hlt i (by omega)

/-- **C61 (partial)** For every random stream: the threshold is set by the tenth candidate alone.  If its effect is not
positive, the selection stops at once with `tau = 0` and keeps the tenth pair; otherwise it keeps the first later
candidate whose effect is at least that of the tenth, with its pair and its effect, and runs for ever if there is none.
Missing: the comparison with the first nine candidates, which fails (`C61_below_best_violated`), and the agreement of
`tau` with the retained pair when the tenth effect is negative (`C61_negative_violated`). -/
theorem C61_selection_partial (normal : Nat → W → List ℝ × W) (hn : ∀ n w, (normal n w).1.length = n) (z : Z0) (hz : z.WF) (w : W) :
    let tau := tauAt normal z.support z.beta0 w
    (tau 9 ≤ 0 → ∀ fuel, ∃ s w', select normal z fuel w = some (.ok s, w') ∧ s.tau = 0 ∧ (s.p0, s.p1) = pairAt normal w 9) ∧
    (0 < tau 9 → ∀ k, 10 ≤ k → tau 9 ≤ tau k → (∀ j, 10 ≤ j → j < k → tau j < tau 9) → ∀ fuel, k - 10 < fuel →
      ∃ s w', select normal z fuel w = some (.ok s, w') ∧ s.tau = tau k ∧ (s.p0, s.p1) = pairAt normal w k ∧
        gap z.support z.beta0 (s.p0, s.p1) = s.tau) ∧
    (0 < tau 9 → (∀ k, 10 ≤ k → tau k < tau 9) → ∀ fuel, select normal z fuel w = none) := by
  refine ⟨?_, ?_, ?_⟩
  · intro h fuel
    rw [select_eq normal hn hz, untilBig_stop]
    · exact ⟨_, _, rfl, rfl, rfl⟩
    · simpa using h
  · intro h k hk hge hlt fuel hf
    have hm : max 0 (tauAt normal z.support z.beta0 w 9) = tauAt normal z.support z.beta0 w 9 := max_eq_right h.le
    rw [select_eq normal hn hz, hm]
    rw [untilBig_run normal hn hz w (k - 10) 10 fuel _ h hf]
    · refine ⟨_, _, rfl, ?_, ?_, ?_⟩
      · simp only [show 10 + (k - 10) = k by omega]
      · simp only [show 10 + (k - 10) = k by omega]
      · rfl
    · exact fun i h1 h2 => hlt i h1 (by omega)
    · simpa only [show 10 + (k - 10) = k by omega] using hge
  · intro h hlt fuel
    have hm : max 0 (tauAt normal z.support z.beta0 w 9) = tauAt normal z.support z.beta0 w 9 := max_eq_right h.le
    rw [select_eq normal hn hz, hm]
    exact untilBig_forever normal hn hz w fuel 10 _ h hlt

/-- **C61** Whenever the selection ends, the two retained vectors are probability vectors on the ten points. -/
theorem C61_retained_pmf (normal : Nat → W → List ℝ × W) (hn : ∀ n w, (normal n w).1.length = n) (z : Z0) (hz : z.WF) (w w' : W)
    (fuel : Nat) (s : Sel) (h : select normal z fuel w = some (.ok s, w')) :
    IsPmf s.p0 ∧ IsPmf s.p1 ∧ s.p0.length = 10 ∧ s.p1.length = 10 := by
  have key : ∀ k, IsPmf (pairAt normal w k).1 ∧ IsPmf (pairAt normal w k).2 ∧
      (pairAt normal w k).1.length = 10 ∧ (pairAt normal w k).2.length = 10 := by
    intro k
    have ne : ∀ i, ((drawAt normal w i).map fun t => 2 / 5 * t) ≠ [] := by
      intro i he
      have := hn 10 (worldAfter normal i w)
      rw [List.map_eq_nil_iff] at he
      unfold drawAt at he
      rw [he] at this; simp at this
    have pos : ∀ i, ∀ t ∈ gibbs ((drawAt normal w i).map fun t => 2 / 5 * t), 0 ≤ t := by
      intro i t ht
      obtain ⟨p, -, rfl, -, hp, -⟩ := C62_softmax _ (ne i)
      exact (hp t ht).le
    exact ⟨⟨pos _, gibbs_sum (ne _)⟩, ⟨pos _, gibbs_sum (ne _)⟩, pairAt_length normal hn k w⟩
  obtain ⟨c1, c2, c3⟩ := C61_selection_partial normal hn z hz w
  by_cases h9 : tauAt normal z.support z.beta0 w 9 ≤ 0
  · obtain ⟨s', w'', he, -, hp⟩ := c1 h9 fuel
    rw [he] at h
    simp only [Option.some.injEq, Prod.mk.injEq, Except.ok.injEq] at h
    obtain ⟨rfl, -⟩ := h
    have := key 9
    rw [← hp] at this
    exact this
  · push Not at h9
    by_cases hex : ∃ k, 10 ≤ k ∧ tauAt normal z.support z.beta0 w 9 ≤ tauAt normal z.support z.beta0 w k
    · classical
      obtain ⟨k1, k2⟩ := Nat.find_spec hex
      have hmin := fun j (hj : j < Nat.find hex) => Nat.find_min hex hj
      generalize Nat.find hex = k at *
      have hlt : ∀ j, 10 ≤ j → j < k → tauAt normal z.support z.beta0 w j < tauAt normal z.support z.beta0 w 9 := by
        intro j h1 h2
        by_contra hc
        exact hmin j h2 ⟨h1, not_lt.mp hc⟩
      by_cases hf : k - 10 < fuel
      · obtain ⟨s', w'', he, -, hp, -⟩ := c2 h9 k k1 k2 hlt fuel hf
        rw [he] at h
        simp only [Option.some.injEq, Prod.mk.injEq, Except.ok.injEq] at h
        obtain ⟨rfl, -⟩ := h
        have := key k
        rw [← hp] at this
        exact this
      · exfalso
        rw [select_eq normal hn hz] at h
        have hm : max 0 (tauAt normal z.support z.beta0 w 9) = tauAt normal z.support z.beta0 w 9 := max_eq_right h9.le
        rw [hm] at h
        have : ∀ f j, (∀ i, j ≤ i → i < j + f → tauAt normal z.support z.beta0 w i < tauAt normal z.support z.beta0 w 9) →
            ∀ s : Sel, s.tauMax = tauAt normal z.support z.beta0 w 9 → s.tau < s.tauMax →
            untilBig normal z f s (worldAfter normal (2 * j) w) = none := by
          intro f
          induction f with
          | zero => intro j _ s _ hs; rw [untilBig, if_pos hs]
          | succ f ih =>
            intro j hj s hs1 hs2
            rw [untilBig_step normal hn hz w f j s hs2]
            exact ih (j + 1) (fun i a b => hj i (by omega) (by omega)) _ hs1 (by rw [hs1]; exact hj j le_rfl (by omega))
        rw [this fuel 10 (fun i a b => hlt i a (by omega)) _ rfl h9] at h
        cases h
    · push Not at hex
      rw [c3 h9 hex fuel] at h
      cases h

/-- **C61 (violated)** For every stream whose tenth candidate is positive and reached by the eleventh, the selected
effect falls short of every one of the ten candidates that exceeds the eleventh: the best of the ten is not the
threshold. -/
theorem C61_below_best_violated (normal : Nat → W → List ℝ × W) (hn : ∀ n w, (normal n w).1.length = n) (z : Z0) (hz : z.WF) (w : W)
    (h9 : 0 < tauAt normal z.support z.beta0 w 9) (h10 : tauAt normal z.support z.beta0 w 9 ≤ tauAt normal z.support z.beta0 w 10)
    (j : Nat) (hj : j < 10) (hbest : tauAt normal z.support z.beta0 w 10 < tauAt normal z.support z.beta0 w j) :
    ∃ s w', select normal z 1 w = some (.ok s, w') ∧ ∃ i < 10, s.tau < tauAt normal z.support z.beta0 w i := by
  obtain ⟨s, w', h1, h2, -⟩ := (C61_selection_partial normal hn z hz w).2.1 h9 10 le_rfl h10 (fun j a b => by omega) 1 (by omega)
  exact ⟨s, w', h1, j, hj, by rw [h2]; exact hbest⟩

/-- **C61 (violated)** For every stream whose tenth candidate has a negative effect the selection ends with `tau = 0`
but retains the tenth pair, whose effect is negative. -/
theorem C61_negative_violated (normal : Nat → W → List ℝ × W) (hn : ∀ n w, (normal n w).1.length = n) (z : Z0) (hz : z.WF) (w : W)
    (h9 : tauAt normal z.support z.beta0 w 9 < 0) (fuel : Nat) :
    ∃ s w', select normal z fuel w = some (.ok s, w') ∧ s.tau = 0 ∧ gap z.support z.beta0 (s.p0, s.p1) < 0 := by
  obtain ⟨s, w', h1, h2, h3⟩ := (C61_selection_partial normal hn z hz w).1 h9.le fuel
  exact ⟨s, w', h1, h2, by rw [h3]; exact h9⟩

/-! ### Instances -/

/-- Ten points on a line, the first at 1 and the others at 0. -/
def demoZ0 : Z0 := ⟨1, [1] :: List.replicate 9 [0], [1]⟩

/-- A stream: draw number `k` has `f k` in first place and zeros elsewhere. -/
def demoNormal (f : Nat → ℝ) (n : Nat) (w : Nat) : List ℝ × Nat :=
  (match n with | 0 => [] | n + 1 => f w :: List.replicate n 0, w + 1)

theorem demoNormal_length (f : Nat → ℝ) (n w : Nat) : (demoNormal f n w).1.length = n := by
  cases n <;> simp [demoNormal]

theorem demoZ0_wf : demoZ0.WF := by
  refine ⟨by simp [demoZ0], ?_, rfl⟩
  intro r hr
  simp [demoZ0] at hr
  rcases hr with rfl | rfl <;> rfl

theorem demo_world (f : Nat → ℝ) (k : Nat) : worldAfter (demoNormal f) k 0 = k := by
  induction k with
  | zero => rfl
  | succ k ih => rw [worldAfter_succ, ih]; rfl

theorem demo_mean (t : ℝ) : meanScore demoZ0.support demoZ0.beta0 (gibbs ((t :: List.replicate 9 0).map fun t => 2 / 5 * t)) =
    Real.exp (2 / 5 * t) / (Real.exp (2 / 5 * t) + 9) := by
  simp only [meanScore, demoZ0, gibbs, List.replicate, List.map_cons, List.map_nil, mul_zero, Real.exp_zero, List.zipWith_cons_cons,
    List.zipWith_nil_left, List.zipWith_nil_right, List.sum_cons, List.sum_nil]
  ring_nf

theorem demo_tau (f : Nat → ℝ) (k : Nat) : tauAt (demoNormal f) demoZ0.support demoZ0.beta0 0 k =
    Real.exp (2 / 5 * f (2 * k + 1)) / (Real.exp (2 / 5 * f (2 * k + 1)) + 9) -
      Real.exp (2 / 5 * f (2 * k)) / (Real.exp (2 / 5 * f (2 * k)) + 9) := by
  unfold tauAt gap pairAt drawAt
  simp only [demo_world]
  rw [show (demoNormal f 10 (2 * k)).1 = f (2 * k) :: List.replicate 9 0 from rfl,
    show (demoNormal f 10 (2 * k + 1)).1 = f (2 * k + 1) :: List.replicate 9 0 from rfl, demo_mean, demo_mean]

theorem demo_mono {a b : ℝ} (h : a < b) : Real.exp (2 / 5 * a) / (Real.exp (2 / 5 * a) + 9) <
    Real.exp (2 / 5 * b) / (Real.exp (2 / 5 * b) + 9) := by
  have h1 := Real.exp_pos (2 / 5 * a)
  have h2 : Real.exp (2 / 5 * a) < Real.exp (2 / 5 * b) := Real.exp_lt_exp.mpr (by linarith)
  rw [div_lt_div_iff₀ (by linarith) (by linarith)]
  nlinarith

/-- The hypotheses of `C61_below_best_violated`: the first candidate beats the tenth and the eleventh. -/
example : let n := demoNormal fun k => if k = 1 then 2 else if k = 19 ∨ k = 21 then 1 else 0
    (∀ m w, (n m w).1.length = m) ∧ demoZ0.WF ∧
      0 < tauAt n demoZ0.support demoZ0.beta0 0 9 ∧
      tauAt n demoZ0.support demoZ0.beta0 0 9 ≤ tauAt n demoZ0.support demoZ0.beta0 0 10 ∧
      tauAt n demoZ0.support demoZ0.beta0 0 10 < tauAt n demoZ0.support demoZ0.beta0 0 0 := by
  refine ⟨demoNormal_length _, demoZ0_wf, ?_, ?_, ?_⟩
  · rw [demo_tau]
    have := demo_mono (show (0 : ℝ) < 1 by norm_num)
    norm_num at this ⊢
    linarith
  · rw [demo_tau, demo_tau]
    norm_num
  · rw [demo_tau, demo_tau]
    have := demo_mono (show (1 : ℝ) < 2 by norm_num)
    norm_num at this ⊢
    linarith

/-- The hypotheses of `C61_negative_violated`, with a positive first candidate. -/
example : let n := demoNormal fun k => if k = 1 ∨ k = 18 then 1 else 0
    (∀ m w, (n m w).1.length = m) ∧ demoZ0.WF ∧
      tauAt n demoZ0.support demoZ0.beta0 0 9 < 0 ∧ 0 < tauAt n demoZ0.support demoZ0.beta0 0 0 := by
  refine ⟨demoNormal_length _, demoZ0_wf, ?_, ?_⟩ <;>
  · rw [demo_tau]
    have := demo_mono (show (0 : ℝ) < 1 by norm_num)
    norm_num at this ⊢
    linarith

end Paper
end Verif
