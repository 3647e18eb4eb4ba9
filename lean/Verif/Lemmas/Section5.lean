import Verif.Spec.Section5
import Verif.Lemmas.SCM2
import Verif.Lemmas.Paper
import Verif.Props.Cpds
import Verif.Props.PaperCpds

/-!
# Lemmas about the examples of Sections 5.1 and 5.2
-/

set_option linter.unusedSectionVars false
set_option linter.unusedSimpArgs false

namespace Verif
namespace Section5
open Cpds Paper
variable {R W : Type}

/-! ## Random choices by inversion -/

theorem partialSums_ge (acc : ℝ) (p : List ℝ) (h : ∀ x ∈ p, 0 ≤ x) : ∀ c ∈ partialSums acc p, acc ≤ c := by
  induction p generalizing acc with
  | nil => simp [partialSums]
  | cons x xs ih =>
    intro c hc
    have hx := h x (by simp)
    rcases List.mem_cons.mp hc with rfl | hc
    · linarith
    · have := ih (acc + x) (fun y hy => h y (by simp [hy])) c hc
      linarith

theorem countP_cell (acc : ℝ) (p : List ℝ) (h : ∀ x ∈ p, 0 ≤ x) (u : ℝ) (h1 : acc ≤ u) (h2 : u < acc + p.sum) :
    let k := (partialSums acc p).countP fun c => decide (c ≤ u)
    k < p.length ∧ acc + (p.take k).sum ≤ u ∧ u < acc + (p.take (k + 1)).sum := by
  induction p generalizing acc with
  | nil => simp at h2; exact absurd h2 (not_lt.mpr h1)
  | cons x xs ih =>
    have hxs : ∀ y ∈ xs, 0 ≤ y := fun y hy => h y (by simp [hy])
    by_cases hx : acc + x ≤ u
    · obtain ⟨i1, i2, i3⟩ := ih (acc + x) hxs hx (by simpa [add_assoc] using h2)
      simp only [partialSums, List.countP_cons, hx, decide_true, if_true]
      refine ⟨by simpa using i1, ?_, ?_⟩
      · simpa [add_assoc] using i2
      · simpa [add_assoc] using i3
    · have hzero : (partialSums (acc + x) xs).countP (fun c => decide (c ≤ u)) = 0 := by
        rw [List.countP_eq_zero]
        intro c hc
        have := partialSums_ge (acc + x) xs hxs c hc
        simp only [decide_eq_true_eq, not_le]
        linarith
      simp only [partialSums, List.countP_cons, hx, decide_false, hzero]
      refine ⟨by simp, by simpa using h1, ?_⟩
      simpa using not_le.mp hx

theorem choice_eq (r : Noise W ℝ) (hu : ∀ w, 0 ≤ (r.unif w).1 ∧ (r.unif w).1 < 1) (p : List ℝ) (hp : IsPmf p) (hl : p.length = 10) (w : W) :
    ∃ k, choice r p w = (.ok k, (r.unif w).2) ∧ InCell p (r.unif w).1 k := by
  unfold choice
  rw [if_neg]
  · refine ⟨_, rfl, ?_⟩
    have := countP_cell 0 p hp.1 (r.unif w).1 (hu w).1 (by rw [hp.2]; simpa using (hu w).2)
    simpa [InCell] using this
  · push Not
    exact ⟨hl, fun x hx => hp.1 x hx, hp.2⟩

/-! ## The parameters -/

theorem drawN_length (f : R → ℝ × R) (n : Nat) (w : R) : (LinGen.drawN f n w).1.length = n := by
  rw [LinGen.drawN_eq]; simp

theorem drawRows_length (f : R → ℝ × R) (k n : Nat) (w : R) :
    (LinGen.drawRows f k n w).1.length = n ∧ ∀ row ∈ (LinGen.drawRows f k n w).1, row.length = k := by
  rw [LinGen.drawRows_eq]
  refine ⟨by simp, ?_⟩
  intro row hrow
  simp only [List.mem_map] at hrow
  obtain ⟨i, -, rfl⟩ := hrow
  simp

theorem scaled_eq (g : Gens R W) (c : ℝ) (n : Nat) (s : R × W) :
    scaled g c n s = (.ok ((LinGen.drawN g.gauss n s.1).1.map (c * ·)), ((LinGen.drawN g.gauss n s.1).2, s.2)) := rfl

theorem scaled_zero (l : List ℝ) : l.map ((0 : ℝ) * ·) = List.replicate l.length 0 := by
  simp [List.map_const']

theorem identity_scalar (c : ℝ) (n : Nat) : IsScalarMatrix c n (identity c n) := by
  refine ⟨by simp [identity], ?_, ?_⟩
  · intro row hrow
    simp only [identity, List.mem_map] at hrow
    obtain ⟨i, -, rfl⟩ := hrow
    simp
  · intro i j hi hj
    simp [identity, hi, hj]

/-- What is known of the parameters after the first `k` paths. -/
structure LoopInv (P : ℝ → Prop) (zDim vDim : List Nat) (k : Nat) (p : Params) : Prop where
  muV : p.muV.length = k + 1
  covV : p.covV.length = k + 1
  muZ : p.muZ.length = k + 1
  covZ : p.covZ.length = k + 1
  alpha : p.alpha.length = k + 1
  gamma : p.gamma.length = k
  beta : p.beta.length = k + 1
  mu0 : ∃ m, p.muZ[0]? = some m ∧ m.length = zDim.getD 0 0
  beta0 : ∃ b, p.beta[0]? = some b ∧ b.length = zDim.getD 0 0
  path : ∀ i, 1 ≤ i → i ≤ k → PathParams P (vDim.getD i 0) (zDim.getD i 0) p i
  last : 1 ≤ k → ∃ s, P s ∧ p.last = some (s, k)

theorem at'_eq {γ : Type} (l : List γ) (i : Nat) (d : γ) (h : i < l.length) : at' l i = .ok (l.getD i d) := by
  simp [at', h]

theorem PathParams.mono {P : ℝ → Prop} {dv dz : Nat} {p q : Params} {i : Nat} (h : PathParams P dv dz p i)
    (a : ∀ x, p.muV[i]? = some x → q.muV[i]? = some x) (b : ∀ x, p.covV[i]? = some x → q.covV[i]? = some x)
    (c : ∀ x, p.muZ[i]? = some x → q.muZ[i]? = some x) (d : ∀ x, p.covZ[i]? = some x → q.covZ[i]? = some x)
    (e : ∀ x, p.alpha[i]? = some x → q.alpha[i]? = some x) (f : ∀ x, p.gamma[i - 1]? = some x → q.gamma[i - 1]? = some x)
    (g : ∀ x, p.beta[i]? = some x → q.beta[i]? = some x) : PathParams P dv dz q i := by
  obtain ⟨h1, ⟨m, h2, h2'⟩, h3, ⟨m', h4, h4'⟩, s, g', a', b', k1, k2, k3, k4, k5, k6, k7, k8⟩ := h
  exact ⟨a _ h1, ⟨m, b _ h2, h2'⟩, c _ h3, ⟨m', d _ h4, h4'⟩, s, g', a', b', k1, k2, k3, k4, k5, f _ k6, e _ k7, g _ k8⟩

theorem getElem?_append_some {γ : Type} (l : List γ) (x : γ) (i : Nat) : ∀ y, l[i]? = some y → (l ++ [x])[i]? = some y := by
  intro y h
  have : i < l.length := by
    by_contra hc; rw [List.getElem?_eq_none (by omega)] at h; simp at h
  rw [List.getElem?_append_left this, h]

theorem half_eq (s : ℝ) (a : List (List ℝ)) : a.map (·.map (1 / 2 * s * ·)) = a.map fun row => row.map (s / 2 * ·) := by
  congr 1; funext row; congr 1; funext t; ring

theorem paramStep_ok (g : Gens R W) (P : ℝ → Prop) (strength : Py (R × W) ℝ)
    (hst : ∀ s, ∃ x s', strength s = (.ok x, s') ∧ P x) (zDim vDim : List Nat) (k : Nat) (hz : k + 1 < zDim.length) (hv : k + 1 < vDim.length)
    (p : Params) (hp : LoopInv P zDim vDim k p) (s : R × W) :
    ∃ p' s', paramStep g strength zDim vDim p (k + 1) s = (.ok p', s') ∧ LoopInv P zDim vDim (k + 1) p' := by
  obtain ⟨x, s1, hs1, hx⟩ := hst s
  unfold paramStep
  simp only [Py.bind_apply, hs1, at'_eq vDim (k + 1) 0 hv, at'_eq zDim (k + 1) 0 hz, Py.lift_apply, scaled_eq, onLocal, Py.pure_apply, half_eq]
  refine ⟨_, _, rfl, ?_⟩
  have hlast : ∀ {γ : Type} (l : List γ) (y : γ), l.length = k + 1 → (l ++ [y])[k + 1]? = some y := by
    intro γ l y hl; rw [List.getElem?_append_right (by omega), hl]; simp
  obtain ⟨h1, h2, h3, h4, h5, h6, h7, ⟨m0, h8, h8'⟩, ⟨b0, h9, h9'⟩, h10, h11⟩ := hp
  refine ⟨by simp [h1], by simp [h2], by simp [h3], by simp [h4], by simp [h5], by simp [h6], by simp [h7],
    ⟨m0, getElem?_append_some _ _ _ _ h8, h8'⟩, ⟨b0, getElem?_append_some _ _ _ _ h9, h9'⟩, ?_, fun _ => ⟨x, hx, rfl⟩⟩
  intro i hi1 hi2
  rcases Nat.lt_or_ge i (k + 1) with hlt | hge
  · exact (h10 i hi1 (by omega)).mono (getElem?_append_some _ _ _) (getElem?_append_some _ _ _) (getElem?_append_some _ _ _)
      (getElem?_append_some _ _ _) (getElem?_append_some _ _ _) (getElem?_append_some _ _ _) (getElem?_append_some _ _ _)
  · obtain rfl : i = k + 1 := by omega
    refine ⟨?_, ⟨_, hlast _ _ h2, identity_scalar _ _⟩, ?_, ⟨_, hlast _ _ h4, identity_scalar _ _⟩, ?_⟩
    · refine (hlast _ _ h1).trans ?_
      rw [scaled_zero, drawN_length]
    · refine (hlast _ _ h3).trans ?_
      rw [scaled_zero, drawN_length]
    · have hgam : ∀ y, (p.gamma ++ [y])[k + 1 - 1]? = some y := by
        intro y
        rw [Nat.add_sub_cancel, List.getElem?_append_right (by omega), h6, Nat.sub_self]; rfl
      refine ⟨x, _, _, _, hx, ?_, ?_, ?_, ?_, hgam _, hlast _ _ h5, hlast _ _ h7⟩
      · exact drawN_length _ _ _
      · exact (drawRows_length _ _ _ _).1
      · exact (drawRows_length _ _ _ _).2
      · exact drawN_length _ _ _

theorem paramLoop_ok (g : Gens R W) (P : ℝ → Prop) (strength : Py (R × W) ℝ)
    (hst : ∀ s, ∃ x s', strength s = (.ok x, s') ∧ P x) (zDim vDim : List Nat) (m k : Nat) (hz : k + m < zDim.length) (hv : k + m < vDim.length)
    (p : Params) (hp : LoopInv P zDim vDim k p) (s : R × W) :
    ∃ p' s', paramLoop g strength zDim vDim (List.range' (k + 1) m) p s = (.ok p', s') ∧ LoopInv P zDim vDim (k + m) p' := by
  induction m generalizing k p s with
  | zero => exact ⟨p, s, rfl, hp⟩
  | succ m ih =>
    obtain ⟨p1, s1, e1, i1⟩ := paramStep_ok g P strength hst zDim vDim k (by omega) (by omega) p hp s
    obtain ⟨p2, s2, e2, i2⟩ := ih (k + 1) (by omega) (by omega) p1 i1 s1
    refine ⟨p2, s2, ?_, by rw [show k + (m + 1) = k + 1 + m by omega]; exact i2⟩
    rw [List.range'_succ, paramLoop, Py.bind_apply, e1]
    exact e2

theorem params_ok (g : Gens R W) (P : ℝ → Prop) (strength : Py (R × W) ℝ)
    (hst : ∀ s, ∃ x s', strength s = (.ok x, s') ∧ P x) (zDim vDim : List Nat) (M : Nat) (hM : 1 ≤ M) (hz : M < zDim.length) (hv : M < vDim.length)
    (s : R × W) : ∃ p s', params g strength zDim vDim M s = (.ok p, s') ∧ GoodParams P zDim vDim M p := by
  unfold params
  simp only [Py.bind_apply, at'_eq zDim 0 0 (by omega), Py.lift_apply, scaled_eq]
  obtain ⟨p, s', e, i⟩ := paramLoop_ok g P strength hst zDim vDim M 0 (by omega) (by omega)
    { muV := [[]], covV := [[]], muZ := [(LinGen.drawN g.gauss (zDim.getD 0 0) s.1).1.map (1 / 5 * ·)], covZ := [identity (1 / 2) (zDim.getD 0 0)],
      alpha := [(0, [])], gamma := [],
      beta := [(LinGen.drawN g.gauss (zDim.getD 0 0) (LinGen.drawN g.gauss (zDim.getD 0 0) s.1).2).1.map (1 / 5 * ·)], last := none }
    ⟨rfl, rfl, rfl, rfl, rfl, rfl, rfl, ⟨_, rfl, by rw [List.length_map, drawN_length]⟩, ⟨_, rfl, by rw [List.length_map, drawN_length]⟩, fun i _ _ => by omega, by omega⟩
    ((LinGen.drawN g.gauss (zDim.getD 0 0) (LinGen.drawN g.gauss (zDim.getD 0 0) s.1).2).2, s.2)
  rw [Nat.zero_add] at e
  rw [e]
  simp only [Nat.zero_add] at i
  obtain ⟨x, hx, hl⟩ := i.last hM
  simp only [hl, Py.bind_apply, at'_eq zDim M 0 hz, Py.lift_apply, scaled_eq, Py.pure_apply]
  refine ⟨_, _, rfl, i.gamma, ?_, i.mu0, ?_, ?_⟩
  · simp [i.beta]
  · obtain ⟨b, hb, hb'⟩ := i.beta0
    exact ⟨b, getElem?_append_some _ _ _ _ hb, hb'⟩
  · intro j h1 h2
    exact (i.path j h1 h2).mono (fun _ h => h) (fun _ h => h) (fun _ h => h) (fun _ h => h) (fun _ h => h) (fun _ h => h) (getElem?_append_some _ _ _)

theorem untilBig_no_error (normal : Nat → R → List ℝ × R) (hn : ∀ n w, (normal n w).1.length = n) {z : Z0} (hz : z.WF) (w : R)
    (fuel j : Nat) (s : Sel) (e : PyErr) (w' : R) : untilBig normal z fuel s (worldAfter normal (2 * j) w) ≠ some (.error e, w') := by
  induction fuel generalizing j s with
  | zero => rw [untilBig]; split <;> simp
  | succ f ih =>
    by_cases h : s.tau < s.tauMax
    · rw [untilBig_step normal hn hz w f j s h]
      exact ih (j + 1) _
    · rw [untilBig_stop _ _ _ _ _ h]; simp

theorem select_no_error (normal : Nat → R → List ℝ × R) (hn : ∀ n w, (normal n w).1.length = n) {z : Z0} (hz : z.WF) (w : R)
    (fuel : Nat) (e : PyErr) (w' : R) : select normal z fuel w ≠ some (.error e, w') := by
  rw [select_eq normal hn hz]
  exact untilBig_no_error normal hn hz w fuel 10 _ e w'

/-- Facts about the result of the setup. -/
structure GoodSetup (P : ℝ → Prop) (zDim vDim : List Nat) (M : Nat) (S : Setup) : Prop where
  p : GoodParams P zDim vDim M S.p
  d : S.z0.d = zDim.getD 0 0
  wf : S.z0.WF
  beta0 : S.z0.beta0 = S.p.beta.getD 0 []
  p0 : IsPmf S.sel.p0
  p1 : IsPmf S.sel.p1
  len0 : S.sel.p0.length = 10
  len1 : S.sel.p1.length = 10

theorem setup_good (g : Gens R W) (P : ℝ → Prop) (strength : Py (R × W) ℝ)
    (hst : ∀ s, ∃ x s', strength s = (.ok x, s') ∧ P x) (zDim vDim : List Nat) (M : Nat) (hM : 1 ≤ M) (hz : M < zDim.length) (hv : M < vDim.length)
    (fuel : Nat) (s : R × W) :
    (setup g strength zDim vDim M fuel s = none) ∨
    ∃ S s', setup g strength zDim vDim M fuel s = some (.ok S, s') ∧ GoodSetup P zDim vDim M S := by
  obtain ⟨p, s1, e, hp⟩ := params_ok g P strength hst zDim vDim M hM hz hv s
  unfold setup
  rw [e]
  simp only [setupZ0, at'_eq zDim 0 0 (by omega)]
  obtain ⟨m0, hm, hm'⟩ := hp.mu0
  obtain ⟨b0, hb, hb'⟩ := hp.beta0
  have hm0 : p.muZ.getD 0 [] = m0 := by simp [hm]
  have hb0 : p.beta.getD 0 [] = b0 := by simp [hb]
  have hwf : Z0.WF ⟨zDim.getD 0 0, (LinGen.drawRows g.gauss (zDim.getD 0 0) supportSize s1.1).1.map fun row => List.zipWith (· + ·) (p.muZ.getD 0 []) row, p.beta.getD 0 []⟩ := by
    refine ⟨?_, ?_, by rw [hb0, hb']⟩
    · simp [(drawRows_length _ _ _ _).1, supportSize]
    · intro row hrow
      simp only [List.mem_map] at hrow
      obtain ⟨row, hr, rfl⟩ := hrow
      rw [hm0, List.length_zipWith, hm', (drawRows_length _ _ _ _).2 row hr, min_self]
  have hn : ∀ n w, (stdNormals g n w).1.length = n := fun n w => drawN_length _ _ _
  generalize hsel : select (stdNormals g) _ fuel _ = t
  have hpmf := C61_retained_pmf (stdNormals g) hn _ hwf
    (LinGen.drawRows g.gauss (zDim.getD 0 0) supportSize s1.1).2
  rcases t with _ | ⟨e | sel, r2⟩
  · exact .inl rfl
  · exfalso
    exact select_no_error (stdNormals g) hn hwf _ _ _ _ hsel
  · right
    obtain ⟨q1, q2, q3, q4⟩ := hpmf _ fuel sel hsel
    exact ⟨_, _, rfl, hp, rfl, hwf, rfl, q1, q2, q3, q4⟩

end Section5
end Verif
