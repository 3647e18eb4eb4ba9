import Verif.Props.Section5

/-!
# Property C73: the random numbers behind the parameters of Sections 5.1 and 5.2
-/

set_option linter.unusedSectionVars false

namespace Verif
namespace Section5
open Cpds Paper
variable {R W : Type}

/-- Path `i` has strength `x`, and its coefficients are `x`, `x / 2` and `2 - x` times consecutive normal numbers of the
stream that starts in state `r`; the first `dv + dz` numbers were multiplied by zero (the means). -/
structure PathDraws (g : Gens R W) (dv dz : Nat) (p : Params) (i : Nat) (x : ℝ) (r : R) : Prop where
  gamma : p.gamma[i - 1]? = some ((List.range dv).map fun j => x * nthDraw g.gauss r (dv + dz + j))
  alpha : p.alpha[i]? = some (dz, (List.range dv).map fun k => (List.range dz).map fun l =>
    x / 2 * nthDraw g.gauss r (dv + dz + dv + (k * dz + l)))
  beta : p.beta[i]? = some ((List.range dz).map fun l => (2 - x) * nthDraw g.gauss r (dv + dz + dv + dv * dz + l))

/-- The draws of paths `k + 1, ..., k + m` from state `s` of the generators to state `s'`: the strength of path `i` is drawn
in the state in which path `i - 1` left the generators. -/
structure DrawsOf (g : Gens R W) (strength : Py (R × W) ℝ) (zDim vDim : List Nat) (k m : Nat) (s s' : R × W) (p : Params)
    (x : Nat → ℝ) (st : Nat → R × W) : Prop where
  first : st (k + 1) = s
  last : st (k + m + 1) = s'
  path : ∀ i, k < i → i ≤ k + m → ∃ t, strength (st i) = (.ok (x i), t) ∧
    PathDraws g (vDim.getD i 0) (zDim.getD i 0) p i (x i) t.1 ∧
    st (i + 1) = (afterDraws g.gauss t.1 (vDim.getD i 0 + zDim.getD i 0 + vDim.getD i 0 + vDim.getD i 0 * zDim.getD i 0 + zDim.getD i 0), t.2)

/-- The lists have as many entries as there have been iterations. -/
structure Sizes (k : Nat) (p : Params) : Prop where
  alpha : p.alpha.length = k + 1
  gamma : p.gamma.length = k
  beta : p.beta.length = k + 1

/-- The lists of `q` begin with those of `p`. -/
structure Extends (p q : Params) : Prop where
  muZ : ∀ (i : Nat) x, p.muZ[i]? = some x → q.muZ[i]? = some x
  covZ : ∀ (i : Nat) x, p.covZ[i]? = some x → q.covZ[i]? = some x
  alpha : ∀ (i : Nat) x, p.alpha[i]? = some x → q.alpha[i]? = some x
  gamma : ∀ (i : Nat) x, p.gamma[i]? = some x → q.gamma[i]? = some x
  beta : ∀ (i : Nat) x, p.beta[i]? = some x → q.beta[i]? = some x

theorem PathDraws.extend {g : Gens R W} {dv dz : Nat} {p q : Params} {i : Nat} {x : ℝ} {r : R} (h : PathDraws g dv dz p i x r)
    (e : Extends p q) : PathDraws g dv dz q i x r :=
  ⟨e.gamma _ _ h.gamma, e.alpha _ _ h.alpha, e.beta _ _ h.beta⟩

theorem paramStep_draws (g : Gens R W) (strength : Py (R × W) ℝ) (zDim vDim : List Nat) (k : Nat) (hz : k + 1 < zDim.length)
    (hv : k + 1 < vDim.length) (p : Params) (hp : Sizes k p) (s t : R × W) (x : ℝ) (hx : strength s = (.ok x, t)) :
    ∃ p', paramStep g strength zDim vDim p (k + 1) s = (.ok p', (afterDraws g.gauss t.1 (vDim.getD (k + 1) 0 + zDim.getD (k + 1) 0 +
        vDim.getD (k + 1) 0 + vDim.getD (k + 1) 0 * zDim.getD (k + 1) 0 + zDim.getD (k + 1) 0), t.2)) ∧
      Sizes (k + 1) p' ∧ Extends p p' ∧ p'.last = some (x, k + 1) ∧
      PathDraws g (vDim.getD (k + 1) 0) (zDim.getD (k + 1) 0) p' (k + 1) x t.1 := by
  have hlast : ∀ {γ : Type} (l : List γ) (y : γ), l.length = k + 1 → (l ++ [y])[k + 1]? = some y := by
    intro γ l y hl; rw [List.getElem?_append_right (by omega), hl]; simp
  have hgam : ∀ y, (p.gamma ++ [y])[k + 1 - 1]? = some y := by
    intro y
    rw [Nat.add_sub_cancel, List.getElem?_append_right (by rw [hp.gamma]), hp.gamma, Nat.sub_self]; rfl
  unfold paramStep
  simp only [Py.bind_apply, hx, at'_eq vDim (k + 1) 0 hv, at'_eq zDim (k + 1) 0 hz, Py.lift_apply, scaled_eq, onLocal, Py.pure_apply, half_eq,
    LinGen.drawN_eq, LinGen.drawRows_eq, ← LinGen.afterDraws_add]
  refine ⟨_, rfl, ⟨by simp [hp.alpha], by simp [hp.gamma], by simp [hp.beta]⟩,
    ⟨fun i => getElem?_append_some _ _ i, fun i => getElem?_append_some _ _ i, fun i => getElem?_append_some _ _ i,
      fun i => getElem?_append_some _ _ i, fun i => getElem?_append_some _ _ i⟩, rfl, ?_, ?_, ?_⟩
  · rw [hgam]
    simp only [List.map_map, Function.comp_def, LinGen.nthDraw_add]
  · rw [hlast _ _ hp.alpha]
    simp only [List.map_map, Function.comp_def, LinGen.nthDraw_add, LinGen.afterDraws_add]
  · rw [hlast _ _ hp.beta]
    simp only [List.map_map, Function.comp_def, LinGen.nthDraw_add, LinGen.afterDraws_add]

theorem Extends.trans {p q r : Params} (a : Extends p q) (b : Extends q r) : Extends p r :=
  ⟨fun i x h => b.muZ i x (a.muZ i x h), fun i x h => b.covZ i x (a.covZ i x h), fun i x h => b.alpha i x (a.alpha i x h),
    fun i x h => b.gamma i x (a.gamma i x h), fun i x h => b.beta i x (a.beta i x h)⟩

theorem paramLoop_draws (g : Gens R W) (strength : Py (R × W) ℝ) (hst : ∀ s, ∃ x s', strength s = (.ok x, s')) (zDim vDim : List Nat)
    (m k : Nat) (hz : k + m < zDim.length) (hv : k + m < vDim.length) (p : Params) (hp : Sizes k p) (s : R × W) :
    ∃ p' s' x st, paramLoop g strength zDim vDim (List.range' (k + 1) m) p s = (.ok p', s') ∧ Sizes (k + m) p' ∧ Extends p p' ∧
      (1 ≤ m → p'.last = some (x (k + m), k + m)) ∧ DrawsOf g strength zDim vDim k m s s' p' x st := by
  induction m generalizing k p s with
  | zero =>
    exact ⟨p, s, fun _ => 0, fun _ => s, rfl, hp, ⟨fun _ _ h => h, fun _ _ h => h, fun _ _ h => h, fun _ _ h => h, fun _ _ h => h⟩, by omega,
      rfl, rfl, fun i h1 h2 => by omega⟩
  | succ m ih =>
    obtain ⟨x0, t, hx0⟩ := hst s
    obtain ⟨p1, e1, z1, a1, l1, d1⟩ := paramStep_draws g strength zDim vDim k (by omega) (by omega) p hp s t x0 hx0
    obtain ⟨p2, s2, x, st, e2, z2, a2, l2, d2⟩ := ih (k + 1) (by omega) (by omega) p1 z1 _
    have hk : k + (m + 1) = k + 1 + m := by omega
    refine ⟨p2, s2, fun i => if i = k + 1 then x0 else x i, fun i => if i = k + 1 then s else st i, ?_, by rw [hk]; exact z2, a1.trans a2, ?_, ?_, ?_, ?_⟩
    · rw [List.range'_succ, paramLoop, Py.bind_apply, e1]
      exact e2
    · intro _
      rcases Nat.eq_zero_or_pos m with rfl | hm
      · simp only [List.range'_zero, paramLoop, Py.pure_apply, Prod.mk.injEq, Except.ok.injEq] at e2
        rw [← e2.1, l1]
        simp
      · rw [l2 hm, hk]
        simp [show m ≠ 0 by omega]
    · simp
    · rw [hk, if_neg (by omega)]
      exact d2.last
    · intro i h1 h2
      rcases Nat.eq_or_lt_of_le (Nat.succ_le_of_lt h1) with h | h
      · obtain rfl : i = k + 1 := h.symm
        refine ⟨t, by simpa using hx0, by simpa using d1.extend a2, ?_⟩
        rw [if_neg (by omega)]
        exact d2.first
      · obtain ⟨t', q1, q2, q3⟩ := d2.path i (by omega) (by omega)
        have hne : i ≠ k + 1 := by omega
        refine ⟨t', by simpa [hne] using q1, by simpa [hne] using q2, ?_⟩
        rw [if_neg (by omega)]
        exact q3

/-- **C73** Which random numbers the parameters of both examples consist of, for every number of paths, all dimensions and
every generator.  The mean and the coefficients of `Z0` are the first `2 * d0` normal numbers times `1/5`, the
covariance of `Z0` is `1/2` times the unit matrix, every path takes
one strength `x i` and the normal numbers that follow, no number being used twice, and the surplus coefficients at the end
are the next normal numbers times `1 - x M`, with the strength of the last path. -/
theorem C73_parameter_draws (g : Gens R W) (strength : Py (R × W) ℝ) (hst : ∀ s, ∃ x s', strength s = (.ok x, s')) (zDim vDim : List Nat)
    (M : Nat) (hM : 1 ≤ M) (hz : M < zDim.length) (hv : M < vDim.length) (s : R × W) :
    ∃ p s' x st, params g strength zDim vDim M s = (.ok p, (afterDraws g.gauss s'.1 (zDim.getD M 0), s'.2)) ∧
      p.muZ[0]? = some ((List.range (zDim.getD 0 0)).map fun j => 1 / 5 * nthDraw g.gauss s.1 j) ∧
      p.beta[0]? = some ((List.range (zDim.getD 0 0)).map fun j => 1 / 5 * nthDraw g.gauss s.1 (zDim.getD 0 0 + j)) ∧
      (∃ c, p.covZ[0]? = some c ∧ IsScalarMatrix (1 / 2) (zDim.getD 0 0) c) ∧
      DrawsOf g strength zDim vDim 0 M (afterDraws g.gauss s.1 (zDim.getD 0 0 + zDim.getD 0 0), s.2) s' p x st ∧
      p.beta[M + 1]? = some ((List.range (zDim.getD M 0)).map fun j => (1 - x M) * nthDraw g.gauss s'.1 j) := by
  unfold params
  simp only [Py.bind_apply, at'_eq zDim 0 0 (by omega), Py.lift_apply, scaled_eq]
  obtain ⟨p, s', x, st, e, z, a, l, d⟩ := paramLoop_draws g strength hst zDim vDim M 0 (by omega) (by omega)
    { muV := [[]], covV := [[]], muZ := [(LinGen.drawN g.gauss (zDim.getD 0 0) s.1).1.map (1 / 5 * ·)], covZ := [identity (1 / 2) (zDim.getD 0 0)],
      alpha := [(0, [])], gamma := [],
      beta := [(LinGen.drawN g.gauss (zDim.getD 0 0) (LinGen.drawN g.gauss (zDim.getD 0 0) s.1).2).1.map (1 / 5 * ·)], last := none }
    ⟨rfl, rfl, rfl⟩ ((LinGen.drawN g.gauss (zDim.getD 0 0) (LinGen.drawN g.gauss (zDim.getD 0 0) s.1).2).2, s.2)
  rw [Nat.zero_add] at e
  rw [e]
  have l' := l hM
  rw [Nat.zero_add] at l'
  simp only [l', Py.bind_apply, at'_eq zDim M 0 hz, Py.lift_apply, scaled_eq, Py.pure_apply, LinGen.drawN_eq]
  refine ⟨_, s', x, st, rfl, ?_, ?_, ?_, ⟨?_, d.last, ?_⟩, ?_⟩
  · rw [a.muZ 0 _ rfl, LinGen.drawN_eq]
    simp only [List.map_map, Function.comp_def]
  · refine getElem?_append_some _ _ 0 _ ?_
    rw [a.beta 0 _ rfl, LinGen.drawN_eq, LinGen.drawN_eq]
    simp only [List.map_map, Function.comp_def, LinGen.nthDraw_add]
  · exact ⟨_, a.covZ 0 _ rfl, identity_scalar _ _⟩
  · rw [d.first]
    simp only [LinGen.drawN_eq, LinGen.afterDraws_add]
  · intro i h1 h2
    obtain ⟨t, q1, q2, q3⟩ := d.path i h1 h2
    exact ⟨t, q1, ⟨q2.gamma, q2.alpha, getElem?_append_some _ _ _ _ q2.beta⟩, q3⟩
  · have hb := z.beta
    rw [Nat.zero_add] at hb
    rw [List.getElem?_append_right (by omega), hb, Nat.sub_self]
    simp only [List.map_map, Function.comp_def, List.getElem?_cons_zero]

/-- **C73** The values `Z0` may take, for every number of paths, all dimensions and every generator: whenever the setup of
one of the examples ends, they are ten vectors, the mean (the first normal numbers times `1/5`) plus the normal numbers that
follow those of the parameters; the distributions of `Z0` are then selected, as described in C61, from the
numbers after these. -/
theorem C73_support_draws (g : Gens R W) (strength : Py (R × W) ℝ) (hst : ∀ s, ∃ x s', strength s = (.ok x, s')) (zDim vDim : List Nat)
    (M : Nat) (hM : 1 ≤ M) (hz : M < zDim.length) (hv : M < vDim.length) (fuel : Nat) (s s1 : R × W) (S : Setup)
    (h : setup g strength zDim vDim M fuel s = some (.ok S, s1)) :
    ∃ r, params g strength zDim vDim M s = (.ok S.p, (r, s1.2)) ∧
      S.z0.support = ((List.range 10).map fun k => (List.range (zDim.getD 0 0)).map fun j =>
        1 / 5 * nthDraw g.gauss s.1 j + nthDraw g.gauss r (k * zDim.getD 0 0 + j)) ∧
      select (stdNormals g) S.z0 fuel (afterDraws g.gauss r (10 * zDim.getD 0 0)) = some (.ok S.sel, s1.1) := by
  obtain ⟨p, s', x, st, e, h1, -⟩ := C73_parameter_draws g strength hst zDim vDim M hM hz hv s
  unfold setup at h
  rw [e] at h
  simp only [setupZ0, at'_eq zDim 0 0 (by omega), LinGen.drawRows_eq] at h
  have hm : p.muZ.getD 0 [] = (List.range (zDim.getD 0 0)).map fun j => 1 / 5 * nthDraw g.gauss s.1 j := by simp [h1]
  have hsup : ∀ r : R, (((List.range supportSize).map fun i => (List.range (zDim.getD 0 0)).map fun j =>
      nthDraw g.gauss r (i * zDim.getD 0 0 + j)).map fun row => List.zipWith (· + ·) (p.muZ.getD 0 []) row) =
      (List.range 10).map fun k => (List.range (zDim.getD 0 0)).map fun j =>
        1 / 5 * nthDraw g.gauss s.1 j + nthDraw g.gauss r (k * zDim.getD 0 0 + j) := by
    intro r
    rw [hm, List.map_map]
    refine List.map_congr_left fun k _ => ?_
    simp only [Function.comp_def, List.zipWith_map, List.zipWith_self]
  split at h
  · cases h
  · cases h
  · rename_i sel r2 hsel
    simp only [Option.some.injEq, Prod.mk.injEq, Except.ok.injEq] at h
    obtain ⟨rfl, rfl⟩ := h
    exact ⟨_, e, hsup _, hsel⟩

/-- A local generator whose normal numbers are `0, 1, 2, ...`. -/
noncomputable def countGens : Gens Nat Unit where
  gauss r := (r, r + 1)
  unif _ _ r := (1 / 2, r)
  globalUnif _ _ _ := (1 / 2, ())
  randint _ _ := (0, ())

/-- Two paths with blocks of several dimensions meet the hypotheses, whether the strengths come from the local or from the
global generator. -/
example : (∀ s, ∃ x s', strength51 countGens s = (.ok x, s')) ∧ (∀ s, ∃ x s', strength52 countGens s = (.ok x, s')) ∧
    2 < [2, 1, 2].length ∧ 2 < [0, 3, 1].length :=
  ⟨fun _ => ⟨_, _, rfl⟩, fun _ => ⟨_, _, rfl⟩, by simp, by simp⟩

/-- One path of strength 1/2 and blocks of one dimension: numbers 0 and 1 are used for `Z0`, numbers 2 and 3 for the means,
numbers 4, 5 and 6 for the coefficients, and number 7 for the surplus coefficient. -/
example : ∃ p s', params countGens (strength51 countGens) [1, 1] [0, 1] 1 (0, ()) = (.ok p, s') ∧ s'.1 = 8 ∧
    p.muZ[0]? = some [0] ∧ p.gamma = [[2]] ∧ p.alpha[1]? = some (1, [[5 / 4]]) ∧ p.beta = [[1 / 5], [9], [7 / 2]] := by
  refine ⟨_, _, rfl, rfl, ?_, ?_, ?_, ?_⟩ <;>
    simp [stdNormals, countGens, LinGen.drawN, LinGen.drawRows] <;> norm_num

/-- The setup with constant generators ends. -/
example : ∃ S s', setup demoGens (strength51 demoGens) [2, 1, 2] [0, 3, 1] 2 0 ((), ()) = some (.ok S, s') ∧
    S.z0.support = List.replicate 10 [6 / 5, 6 / 5] := by
  obtain ⟨S, s', h⟩ := demo_setup (strength51 demoGens) (fun s => ⟨_, _, rfl⟩) [2, 1, 2] [0, 3, 1] 2 (by simp) (by simp) (by simp) 0
  obtain ⟨r, -, h2, -⟩ := C73_support_draws demoGens (strength51 demoGens) (fun s => ⟨_, _, rfl⟩) [2, 1, 2] [0, 3, 1] 2
    (by simp) (by simp) (by simp) 0 ((), ()) s' S h
  refine ⟨S, s', h, h2.trans ?_⟩
  simp [List.range_succ, nthDraw, demoGens, List.replicate]
  norm_num

end Section5
end Verif
