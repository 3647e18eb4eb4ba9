import Verif.Spec.LinearGen
import Verif.Props.Checks
import Verif.Lemmas.Arms7

/-!
# C71 the linear data generator, C67 `set_to_truth`
-/

set_option linter.unusedSectionVars false
set_option linter.unusedSimpArgs false

namespace Verif
open Param

/-! ## C71 -/

namespace LinGen
variable {W α : Type} [Field α] [LinearOrder α]

theorem afterDraws_succ (f : W → α × W) (w : W) (n : Nat) : afterDraws f w (n + 1) = afterDraws f (f w).2 n := rfl

theorem afterDraws_add (f : W → α × W) (w : W) (m n : Nat) : afterDraws f w (m + n) = afterDraws f (afterDraws f w m) n := by
  unfold afterDraws
  rw [Nat.add_comm, Function.iterate_add_apply]

theorem nthDraw_add (f : W → α × W) (w : W) (m n : Nat) : nthDraw f w (m + n) = nthDraw f (afterDraws f w m) n := by
  unfold nthDraw
  rw [afterDraws_add]

theorem drawN_eq (f : W → α × W) (n : Nat) (w : W) : drawN f n w = ((List.range n).map (nthDraw f w), afterDraws f w n) := by
  induction n generalizing w with
  | zero => rfl
  | succ n ih =>
    unfold drawN
    simp only [ih]
    rw [List.range_succ_eq_map, List.map_cons, List.map_map, afterDraws_succ]
    rfl

theorem drawRows_eq (f : W → α × W) (k n : Nat) (w : W) :
    drawRows f k n w = ((List.range n).map fun i => (List.range k).map fun j => nthDraw f w (i * k + j), afterDraws f w (n * k)) := by
  induction n generalizing w with
  | zero => simp [drawRows, afterDraws]
  | succ n ih =>
    unfold drawRows
    simp only [drawN_eq, ih]
    rw [List.range_succ_eq_map, List.map_cons, List.map_map, Nat.succ_mul, Nat.add_comm (n * k) k, afterDraws_add]
    refine Prod.ext ?_ rfl
    dsimp only
    congr 1
    · simp
    · refine List.map_congr_left fun i _ => ?_
      refine List.map_congr_left fun j _ => ?_
      rw [← nthDraw_add]
      congr 1
      simp only [Nat.succ_eq_add_one]
      ring

theorem dot_eq (k : Nat) (z : Nat → α) (b : List α) (hb : b.length = k) : dot ((List.range k).map z) b = ∑ j : Fin k, z j * b.getD j 0 := by
  subst hb
  unfold dot
  rw [← List.sum_ofFn]
  congr 1
  apply List.ext_getElem
  · simp
  · intro i h1 h2
    simp only [List.length_ofFn] at h2
    simp [List.getD_eq_getElem _ _ h2]

/-- What `generate` has computed when it first calls the noise model. -/
theorem generate_start (r : Draws W α) (hs : ∀ a, 0 ≤ r.sig a ∧ r.sig a ≤ 1) (g : LinGen W α) (hg : g.gamma.length = g.nFeatures) (n : Nat) (w : W) :
    ∃ x t, x = (List.range n).map (fun i => (List.range g.nFeatures).map fun j => nthDraw r.gauss w (i * g.nFeatures + j)) ∧
      t = (List.range n).map (fun i => (if nthDraw r.unif (afterDraws r.gauss w (n * g.nFeatures)) i <
          r.sig (∑ j : Fin g.nFeatures, nthDraw r.gauss w (i * g.nFeatures + j) * g.gamma.getD j 0) then 1 else 0 : Int)) ∧
      generate r g n w = (do
        let noise ← g.noise n
        if noise.length ≠ n then Py.raise .valueError
        else if g.beta.length ≠ g.nFeatures then Py.raise .valueError
        else do
          let noise' ← g.noise n
          let y ← Py.lift (addArr (List.zipWith (fun row s => dot row g.beta + g.tau * (s : Int)) x t) noise')
          return ExpData.new (some (.d2 g.nFeatures (x.map (·.map .flt)))) (some (t.map .int)) (some (y.map .flt)) : Py W (ExpData (Cell α)))
        (afterDraws r.unif (afterDraws r.gauss w (n * g.nFeatures)) n) := by
  refine ⟨_, _, rfl, rfl, ?_⟩
  unfold generate
  rw [Py.bind_apply]
  unfold randn
  rw [drawRows_eq]
  dsimp only
  rw [Py.bind_apply]
  unfold bernoulli
  have hq : (List.map (fun row => r.sig (dot row g.gamma)) (List.map (fun i => List.map (fun j => nthDraw r.gauss w (i * g.nFeatures + j)) (List.range g.nFeatures)) (List.range n))) =
      (List.range n).map fun i => r.sig (∑ j : Fin g.nFeatures, nthDraw r.gauss w (i * g.nFeatures + j) * g.gamma.getD j 0) := by
    rw [List.map_map]
    refine List.map_congr_left fun i _ => ?_
    simp only [Function.comp]
    rw [dot_eq g.nFeatures (fun j => nthDraw r.gauss w (i * g.nFeatures + j)) g.gamma hg]
  rw [hq, if_neg]
  · dsimp only
    rw [List.length_map, List.length_range, drawN_eq]
    dsimp only
    rw [show ∀ (f : Nat → α) (h : Nat → α), List.zipWith (fun u q => if u < q then (1 : Int) else 0) ((List.range n).map f) ((List.range n).map h) =
        (List.range n).map fun i => if f i < h i then 1 else 0 from fun f h => by
      apply List.ext_getElem <;> simp]
  · simp only [List.any_map, List.any_eq_true, Function.comp, decide_eq_true_eq, not_exists, not_and, not_or, not_lt]
    exact fun i _ => ⟨(hs _).1, (hs _).2⟩

/-- The covariates, exposures and means of the responses. -/
theorem means_eq (g : LinGen W α) (hb : g.beta.length = g.nFeatures) (n : Nat) (z : Nat → Nat → α) (t : Nat → Int) :
    List.zipWith (fun row s => dot row g.beta + g.tau * (s : Int)) ((List.range n).map fun i => (List.range g.nFeatures).map (z i)) ((List.range n).map t) =
      (List.range n).map fun i => ∑ j : Fin g.nFeatures, z i j * g.beta.getD j 0 + g.tau * t i := by
  apply List.ext_getElem
  · simp
  · intro i h1 h2
    simp [dot_eq g.nFeatures (z i) g.beta hb]

/-- **C71** When the noise model returns `n` numbers at each of its two calls, the dataset consists of `n` units of the
linear model, with the noise of the second call. -/
theorem C71_model (r : Draws W α) (hs : ∀ a, 0 ≤ r.sig a ∧ r.sig a ≤ 1) (g : LinGen W α) (hg : g.gamma.length = g.nFeatures)
    (hb : g.beta.length = g.nFeatures) (n : Nat) (w w1 w2 : W) (e0 e : List α)
    (h1 : g.noise n (afterDraws r.unif (afterDraws r.gauss w (n * g.nFeatures)) n) = (.ok e0, w1)) (hl : e0.length = n)
    (h2 : g.noise n w1 = (.ok e, w2)) (hl' : e.length = n) :
    generate r g n w = (.ok (Obs.dataset g.nFeatures ((List.range n).map
      (linearUnit r g.nFeatures g.beta g.gamma g.tau w n fun i => e.getD i 0))), w2) := by
  obtain ⟨x, t, hx, ht, he⟩ := generate_start r hs g hg n w
  rw [he, Py.bind_apply, h1]
  simp only [hl, ne_eq, not_true_eq_false, if_false, hb]
  rw [Py.bind_apply, h2]
  dsimp only
  rw [hx, ht, means_eq g hb]
  unfold addArr
  rw [if_pos (by simp [hl'])]
  simp only [Py.bind_apply, Py.lift_apply, Py.pure_apply]
  refine Prod.ext ?_ rfl
  dsimp only [Obs.dataset]
  congr 2
  · simp [List.map_map, Function.comp_def, linearUnit]
  · simp [List.map_map, Function.comp_def, linearUnit]
  · congr 1
    apply List.ext_getElem
    · simp [hl']
    · intro i hi1 hi2
      have : i < e.length := by simpa [hl'] using hi2
      simp [linearUnit, this]

/-- **C71** is violated by the check of the noise model: the array that is checked is thrown away and a second, unchecked
call is used.  A model that returns `n` numbers and then a single number `c` is accepted, and all units share the
noise `c`. -/
theorem C71_check_violated (r : Draws W α) (hs : ∀ a, 0 ≤ r.sig a ∧ r.sig a ≤ 1) (g : LinGen W α) (hg : g.gamma.length = g.nFeatures)
    (hb : g.beta.length = g.nFeatures) (n : Nat) (w w1 w2 : W) (e0 : List α) (c : α)
    (h1 : g.noise n (afterDraws r.unif (afterDraws r.gauss w (n * g.nFeatures)) n) = (.ok e0, w1)) (hl : e0.length = n)
    (h2 : g.noise n w1 = (.ok [c], w2)) (hn : n ≠ 1) :
    generate r g n w = (.ok (Obs.dataset g.nFeatures ((List.range n).map
      (linearUnit r g.nFeatures g.beta g.gamma g.tau w n fun _ => c))), w2) := by
  obtain ⟨x, t, hx, ht, he⟩ := generate_start r hs g hg n w
  rw [he, Py.bind_apply, h1]
  simp only [hl, ne_eq, not_true_eq_false, if_false, hb]
  rw [Py.bind_apply, h2]
  dsimp only
  rw [hx, ht, means_eq g hb]
  have ha : ∀ l : List α, l.length ≠ 1 → addArr l [c] = .ok (l.map (· + c)) := by
    intro l hl
    unfold addArr
    rw [if_neg (by simpa using hl)]
    split
    · simp at hl
    · rename_i heq
      simp only [List.cons.injEq, and_true] at heq
      rw [heq]
    · rename_i h
      exact absurd rfl (h c)
  rw [ha _ (by simpa using hn)]
  simp only [Py.bind_apply, Py.lift_apply, Py.pure_apply]
  refine Prod.ext ?_ rfl
  dsimp only [Obs.dataset]
  congr 2
  · simp [List.map_map, Function.comp_def, linearUnit]
  · simp [List.map_map, Function.comp_def, linearUnit]
  · simp [List.map_map, Function.comp_def, linearUnit]

/-- **C71** A first noise array of the wrong length, a wrong number of coefficients or (for `n ≠ 1`) a second noise array
whose length is neither `n` nor 1 is refused with `ValueError`. -/
theorem C71_refused (r : Draws W α) (hs : ∀ a, 0 ≤ r.sig a ∧ r.sig a ≤ 1) (g : LinGen W α) (hg : g.gamma.length = g.nFeatures) (n : Nat) (w w1 w2 : W)
    (e0 e : List α) (h1 : g.noise n (afterDraws r.unif (afterDraws r.gauss w (n * g.nFeatures)) n) = (.ok e0, w1))
    (h2 : g.noise n w1 = (.ok e, w2)) :
    (e0.length ≠ n → generate r g n w = (.error .valueError, w1)) ∧
    (e0.length = n → g.beta.length ≠ g.nFeatures → generate r g n w = (.error .valueError, w1)) ∧
    (e0.length = n → g.beta.length = g.nFeatures → e.length ≠ n → e.length ≠ 1 → n ≠ 1 → generate r g n w = (.error .valueError, w2)) := by
  obtain ⟨x, t, hx, ht, he⟩ := generate_start r hs g hg n w
  rw [he, Py.bind_apply, h1]
  refine ⟨fun h => ?_, fun h hb => ?_, fun h hb h3 h4 h5 => ?_⟩
  · simp only [h, ne_eq, not_false_eq_true, if_true, Py.raise_apply]
  · simp only [h, ne_eq, not_true_eq_false, if_false, hb, not_false_eq_true, if_true, Py.raise_apply]
  · simp only [h, ne_eq, not_true_eq_false, if_false, hb]
    rw [Py.bind_apply, h2]
    dsimp only
    rw [hx, ht, means_eq g hb]
    have ha : ∀ l : List α, l.length = n → addArr l e = .error .valueError := by
      intro l hl
      unfold addArr
      rw [if_neg (by omega)]
      split
      · simp at hl; omega
      · simp at h4
      · rfl
    rw [ha _ (by simp)]
    rfl

/-- **C71** The constructor refuses exactly the vectors `gamma` of the wrong length; without `gamma` the exposure does not
depend on the covariates. -/
theorem C71_gamma (k : Nat) (beta : List α) (tau : α) (noise : Nat → Py W (List α)) :
    (∀ c : List α, c.length ≠ k → new k beta tau noise (some c) = .error .valueError) ∧
    (∀ c : List α, c.length = k → ∃ g, new k beta tau noise (some c) = .ok g ∧ g.gamma = c ∧ g.nFeatures = k ∧ g.beta = beta ∧ g.tau = tau ∧ g.noise = noise) ∧
    (∃ g, new k beta tau noise none = .ok g ∧ g.gamma.length = k ∧ g.nFeatures = k ∧ g.beta = beta ∧ g.tau = tau ∧ g.noise = noise ∧
      ∀ row : List α, row.length = k → dot row g.gamma = 0) := by
  refine ⟨fun c h => by simp [new, h], fun c h => ⟨⟨k, beta, tau, c, noise⟩, by simp [new, h], rfl, rfl, rfl, rfl, rfl⟩,
    ⟨⟨k, beta, tau, List.replicate k 0, noise⟩, rfl, by simp, rfl, rfl, rfl, rfl, fun row h => ?_⟩⟩
  subst h
  show dot row (List.replicate row.length 0) = 0
  induction row with
  | nil => rfl
  | cons a l ih =>
    unfold dot at ih ⊢
    simp only [List.length_cons, List.replicate_succ, List.zipWith_cons_cons, List.sum_cons, mul_zero, zero_add]
    exact ih

/-- A generator of numbers for the examples: the state counts the draws. -/
def countDraws : Draws Nat ℚ where
  gauss := fun w => (w, w + 1)
  unif := fun w => (1 / 2 * (w % 2 : Nat), w + 1)
  sig := fun a => if a < 3 then 1 / 4 else 3 / 4

/-- A linear model with one covariate, `beta = 2`, `tau = 10`, `gamma = 1` and noise that returns the state. -/
def demo : LinGen Nat ℚ where
  nFeatures := 1
  beta := [2]
  tau := 10
  gamma := [1]
  noise := fun n w => (.ok (List.replicate n (w : ℚ)), w + 1)

example : (∀ a, 0 ≤ countDraws.sig a ∧ countDraws.sig a ≤ 1) ∧ demo.gamma.length = demo.nFeatures ∧ demo.beta.length = demo.nFeatures ∧
    demo.noise 2 (afterDraws countDraws.unif (afterDraws countDraws.gauss 1 (2 * demo.nFeatures)) 2) = (.ok [5, 5], 6) ∧
    demo.noise 2 6 = (.ok [6, 6], 7) ∧
    generate countDraws demo 2 1 = (.ok (Obs.dataset 1 [⟨[.flt 1], .int 0, .flt 8⟩, ⟨[.flt 2], .int 1, .flt 20⟩]), 7) := by
  refine ⟨fun a => ?_, by decide +kernel, by decide +kernel, by decide +kernel, by decide +kernel, by decide +kernel⟩
  simp only [countDraws]
  split <;> norm_num

/-- The same model with a noise model that returns a single number at its second call. -/
def demoShort : LinGen Nat ℚ := { demo with noise := fun n w => (.ok (List.replicate (if w = 5 then n else 1) (w : ℚ)), w + 1) }

example : demoShort.noise 2 (afterDraws countDraws.unif (afterDraws countDraws.gauss 1 (2 * demoShort.nFeatures)) 2) = (.ok [5, 5], 6) ∧
    demoShort.noise 2 6 = (.ok [6], 7) ∧
    generate countDraws demoShort 2 1 = (.ok (Obs.dataset 1 [⟨[.flt 1], .int 0, .flt 8⟩, ⟨[.flt 2], .int 1, .flt 20⟩]), 7) := by
  decide +kernel

end LinGen
end Verif
