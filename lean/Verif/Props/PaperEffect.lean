import Verif.Lemmas.PaperDo
import Verif.Props.Section52

/-!
# Property C75: the treatment effect of the examples of Sections 5.1 and 5.2
-/

set_option linter.unusedSectionVars false
set_option linter.unusedSimpArgs false

namespace Verif
namespace Section5
open Cpds Paper
variable {R W K F : Type}

theorem untilBig_tau (normal : Nat → W → List ℝ × W) (hn : ∀ n w, (normal n w).1.length = n) {z : Z0} (hz : z.WF) (w w' : W) (f j : Nat) (s s' : Sel)
    (h1 : s.tau < s.tauMax → 0 < s.tauMax)
    (h2 : ¬ s.tau < s.tauMax → (0 < s.tau ∧ gap z.support z.beta0 (s.p0, s.p1) = s.tau) ∨ (s.tau = 0 ∧ gap z.support z.beta0 (s.p0, s.p1) ≤ 0))
    (h : untilBig normal z f s (worldAfter normal (2 * j) w) = some (.ok s', w')) :
    (0 < s'.tau ∧ gap z.support z.beta0 (s'.p0, s'.p1) = s'.tau) ∨ (s'.tau = 0 ∧ gap z.support z.beta0 (s'.p0, s'.p1) ≤ 0) := by
  induction f generalizing j s with
  | zero =>
    by_cases hs : s.tau < s.tauMax
    · rw [untilBig, if_pos hs] at h; cases h
    · rw [untilBig, if_neg hs] at h; cases h; exact h2 hs
  | succ f ih =>
    by_cases hs : s.tau < s.tauMax
    · rw [untilBig_step normal hn hz w f j s hs] at h
      refine ih (j + 1) ⟨tauAt normal z.support z.beta0 w j, s.tauMax, (pairAt normal w j).1, (pairAt normal w j).2⟩ (fun _ => h1 hs) (fun hc => ?_) h
      left
      refine ⟨lt_of_lt_of_le (h1 hs) (not_lt.mp hc), rfl⟩
    · rw [untilBig_stop _ _ _ _ _ hs] at h; cases h; exact h2 hs

theorem setup_tau (g : Gens R W) (strength : Py (R × W) ℝ) (hst : ∀ s, ∃ x s', strength s = (.ok x, s')) (zDim vDim : List Nat) (M : Nat) (hM : 1 ≤ M)
    (hz : M < zDim.length) (hv : M < vDim.length) (fuel : Nat) (s s' : R × W) (S : Setup) (h : setup g strength zDim vDim M fuel s = some (.ok S, s')) :
    GoodSetup (fun _ => True) zDim vDim M S ∧
    ((0 < S.sel.tau ∧ gap S.z0.support S.z0.beta0 (S.sel.p0, S.sel.p1) = S.sel.tau) ∨
      (S.sel.tau = 0 ∧ gap S.z0.support S.z0.beta0 (S.sel.p0, S.sel.p1) ≤ 0)) := by
  have hS : GoodSetup (fun _ => True) zDim vDim M S := by
    rcases setup_good g (fun _ => True) strength (fun s => by obtain ⟨x, s', h⟩ := hst s; exact ⟨x, s', h, trivial⟩) zDim vDim M hM hz hv fuel s with h' | ⟨S', s', h', h''⟩
    · rw [h'] at h; cases h
    · rw [h'] at h; cases h; exact h''
  refine ⟨hS, ?_⟩
  unfold setup at h
  split at h
  · cases h
  unfold setupZ0 at h
  split at h
  · cases h
  split at h
  dsimp only at h
  split at h
  · cases h
  · cases h
  · rename_i sel r2 hsel
    cases h
    have hn : ∀ n w, (stdNormals g n w).1.length = n := fun n w => drawN_length _ _ _
    rw [select_eq (stdNormals g) hn hS.wf] at hsel
    refine untilBig_tau (stdNormals g) hn hS.wf _ _ fuel 10 _ _ id (fun hc => ?_) hsel
    right
    refine ⟨rfl, ?_⟩
    have := le_max_right 0 (tauAt (stdNormals g) _ _ _ 9) |>.trans (not_lt.mp hc)
    exact this

/-- **C75** The treatment effect of the example of Section 5.1.  Set the treatment to 0 or to 1 (the CPD of `X` replaced by
`deterministic_cpd`, as `compute_treatment_effect` means to do) and draw `n` units from the same state of the generator.
Nothing but `X`, `Z0` and `Y` changes: unit `j` has the same other covariates, and its two responses differ by the scores
`<z, beta_0>` of the two values of `Z0` that one uniform number selects.  Averaged over that number, the difference is the
effect of the retained pair of distributions.  It is the selected `tau`, if that is positive; else `tau` is 0 and the effect is
not positive. -/
theorem C75_effect51 (r : Noise W ℝ) (hr : GoodNoise r) (g : Gens R W) (strength : Py (R × W) ℝ) (hst : ∀ s, ∃ x s', strength s = (.ok x, s'))
    (zDim vDim : List Nat) (M : Nat) (hM : 1 ≤ M) (hz : M < zDim.length) (hv : M < vDim.length) (fuel : Nat) (s0 s1 : R × W) (S : Setup)
    (hsetup : setup g strength zDim vDim M fuel s0 = some (.ok S, s1)) :
    let score := fun x : ℝ => cellScore (fun z => inner z (S.p.beta.getD 0 [])) S.z0.support (if x = 1 then S.sel.p1 else S.sel.p0)
    let tau := ∫ u in Set.Ico (0 : ℝ) 1, (score 1 u - score 0 u)
    (∀ n, 1 ≤ n → ∀ w, ∃ (u : W) (c : Nat → ℝ) (rest : Nat → List ℝ) (w' : W), ∀ x : ℝ, x = 0 ∨ x = 1 → ∃ (scm : SCM String ℝ W) (smp : Sample ℝ),
      Paper.scm M ((cpds51 r S M).set "X" (SCM.deterministicCpd x)) = .ok scm ∧ scm.generate n w = (.ok smp, w') ∧
      smp.exp = .d1 (List.replicate n x) ∧
      (∀ j, j < n → ∃ k, InCell (if x = 1 then S.sel.p1 else S.sel.p0) (nthDraw r.unif u j) k ∧ smp.cov.row? j = some (S.z0.support.getD k [] ++ rest j)) ∧
      smp.rsp = .d1 ((List.range n).map fun j => score x (nthDraw r.unif u j) + c j)) ∧
    tau = gap S.z0.support (S.p.beta.getD 0 []) (S.sel.p0, S.sel.p1) ∧
    ((0 < S.sel.tau ∧ tau = S.sel.tau) ∨ (S.sel.tau = 0 ∧ tau ≤ 0)) := by
  obtain ⟨hS, htau⟩ := setup_tau g strength hst zDim vDim M hM hz hv fuel s0 s1 S hsetup
  intro score tau
  have hgap : tau = gap S.z0.support (S.p.beta.getD 0 []) (S.sel.p0, S.sel.p1) := by
    have k1 := integral_cellScore (fun z => inner z (S.p.beta.getD 0 [])) S.z0.support S.sel.p1 hS.p1
    have k0 := integral_cellScore (fun z => inner z (S.p.beta.getD 0 [])) S.z0.support S.sel.p0 hS.p0
    have hlen : ∀ v ∈ S.z0.support, v.length = (S.p.beta.getD 0 []).length := by
      intro v hv; rw [hS.wf.2.1 v hv, ← hS.beta0, hS.wf.2.2]
    have e : tau = ∫ u in Set.Ico (0 : ℝ) 1, (cellScore (fun z => inner z (S.p.beta.getD 0 [])) S.z0.support S.sel.p1 u -
        cellScore (fun z => inner z (S.p.beta.getD 0 [])) S.z0.support S.sel.p0 u) := by
      simp [tau, score]
    rw [e, MeasureTheory.integral_sub k1.1 k0.1, k1.2, k0.2, gap, meanScore_meanOf _ _ _ (hS.len1.trans hS.wf.1.symm) hlen,
      meanScore_meanOf _ _ _ (hS.len0.trans hS.wf.1.symm) hlen]
  refine ⟨fun n hn w => ?_, hgap, ?_⟩
  · obtain ⟨c1, c2, c3, c4⟩ := cpds51_get r S M
    refine do_pair r hr hM hS n hn (cpds51 r S M) _ _ c3 c4 c2 (fun i h1 h2 a ha w => ?_) (fun z => inner z (S.p.beta.getD 0 []))
      (fun a w j => ∑ i ∈ Finset.range M, inner (rowAt (a i) j) (S.p.beta.getD (i + 1) []) + r.sqrt (1 / 10) * nthDraw r.gauss w j)
      (fun w => afterDraws r.gauss w n) (fun a ha w => ?_) (fun a b w j h => ?_) w
    · obtain ⟨a1, a2⟩ := hS.alphaLen h1 h2
      have := zCpd51_eq r hr.mvn n (vDim.getD i 0) (zDim.getD i 0) (S.p.alpha.getD i (0, [])).2 a2 (S.p.muZ.getD i []) (hS.muZ h1 h2)
        (S.p.covZ.getD i []) n a ha w
      rw [← a1] at this
      refine ⟨_, _, this, ?_⟩
      rw [a1]
      exact isMat_map _ _ _ fun j => by simp
    · rw [yCpd51_eq r S n M hS.p.beta (fun i => zDim.getD i 0) (fun i hi => hS.betaLen hi) a ha n w]
      congr 3
      apply List.map_congr_left
      intro j _
      ring
    · congr 1
      refine Finset.sum_congr rfl fun i hi => ?_
      rw [h i (Finset.mem_range.mp hi)]
  · rw [hS.beta0] at htau
    rw [hgap]
    exact htau

/-- **C75 (violated)** The effect of the example of Section 5.2 is not the selected one.  As in Section 5.1, the two
interventions change `X`, `Z0` and `Y` only, but the score of a value of `Z0` is the random function `f_ys[0]` there, not
the product with `beta_0` with which `tau` was selected: the effect is the difference of the two means of that function, which is
0 for every function that is constant on the support, whatever `tau` is. -/
theorem C75_effect52_violated (r : Noise W ℝ) (hr : GoodNoise r) (lib : Nonlinear.GPLib K F ℝ) (pred : F → List ℝ → ℝ) (hl : RowWise lib pred) (g : Gens R W) (kernel : K)
    (zDim vDim : List Nat) (M : Nat) (hM : 1 ≤ M) (hz : zDim.length = M + 1) (hv : vDim.length = M + 1) (hpos : (∀ d ∈ zDim, 1 ≤ d) ∧ ∀ d ∈ vDim.tail, 1 ≤ d)
    (fuel : Nat) (s0 s1 : R × W) (S : Setup) (fns : Fns F)
    (hsetup : setup52 lib g kernel zDim vDim M fuel s0 = some (.ok (S, fns), s1)) :
    ∃ f : F, fns.fY[0]? = some [f] ∧
    let score := fun x : ℝ => cellScore (pred f) S.z0.support (if x = 1 then S.sel.p1 else S.sel.p0)
    let tau := ∫ u in Set.Ico (0 : ℝ) 1, (score 1 u - score 0 u)
    (∀ n, 1 ≤ n → ∀ w, ∃ (u : W) (c : Nat → ℝ) (rest : Nat → List ℝ) (w' : W), ∀ x : ℝ, x = 0 ∨ x = 1 → ∃ (scm : SCM String ℝ W) (smp : Sample ℝ),
      Paper.scm M ((cpds52 r lib S fns M).set "X" (SCM.deterministicCpd x)) = .ok scm ∧ scm.generate n w = (.ok smp, w') ∧
      smp.exp = .d1 (List.replicate n x) ∧
      (∀ j, j < n → ∃ k, InCell (if x = 1 then S.sel.p1 else S.sel.p0) (nthDraw r.unif u j) k ∧ smp.cov.row? j = some (S.z0.support.getD k [] ++ rest j)) ∧
      smp.rsp = .d1 ((List.range n).map fun j => score x (nthDraw r.unif u j) + c j)) ∧
    tau = meanOf (pred f) S.z0.support S.sel.p1 - meanOf (pred f) S.z0.support S.sel.p0 ∧
    ((∀ z ∈ S.z0.support, ∀ z' ∈ S.z0.support, pred f z = pred f z') → tau = 0) := by
  obtain ⟨fx, fz, fy, hS, hF⟩ : ∃ fx fz fy, GoodSetup (fun _ => True) zDim vDim M S ∧ GoodFns zDim vDim M fns fx fz fy := by
    rcases setup52_good lib g kernel zDim vDim M hM (by omega) (by omega) fuel s0 with h | ⟨S', fns', fx, fz, fy, s', h, h', h''⟩
    · rw [h] at hsetup; cases hsetup
    · rw [h] at hsetup; cases hsetup; exact ⟨fx, fz, fy, h', h''⟩
  have hzp : ∀ i, 1 ≤ i → i ≤ M → 1 ≤ zDim.getD i 0 := by
    intro i a b
    rw [List.getD_eq_getElem _ _ (by omega)]
    exact hpos.1 _ (List.getElem_mem _)
  refine ⟨fy 0, hF.y 0 (by omega), ?_⟩
  intro score tau
  have htau : tau = meanOf (pred (fy 0)) S.z0.support S.sel.p1 - meanOf (pred (fy 0)) S.z0.support S.sel.p0 := by
    have k1 := integral_cellScore (pred (fy 0)) S.z0.support S.sel.p1 hS.p1
    have k0 := integral_cellScore (pred (fy 0)) S.z0.support S.sel.p0 hS.p0
    have e : tau = ∫ u in Set.Ico (0 : ℝ) 1, (cellScore (pred (fy 0)) S.z0.support S.sel.p1 u - cellScore (pred (fy 0)) S.z0.support S.sel.p0 u) := by
      simp [tau, score]
    rw [e, MeasureTheory.integral_sub k1.1 k0.1, k1.2, k0.2]
  refine ⟨fun n hn w => ?_, htau, fun hconst => ?_⟩
  · obtain ⟨c1, c2, c3, c4⟩ := cpds52_get r lib S fns M
    refine do_pair r hr hM hS n hn (cpds52 r lib S fns M) _ _ c3 c4 c2 (fun i h1 h2 a ha w => ?_) (pred (fy 0))
      (fun a w j => ∑ i ∈ Finset.range M, pred (fy (i + 1)) (rowAt (a i) j) + r.sqrt (1 / 10) * nthDraw r.gauss w j)
      (fun w => afterDraws r.gauss w n) (fun a ha w => ?_) (fun a b w j h => ?_) w
    · have hf : fns.fZ.getD (i - 1) [] = List.replicate (zDim.getD i 0) (fz (i - 1)) := by
        have := hF.z (i - 1) (by omega)
        rw [show i - 1 + 1 = i by omega] at this
        rw [List.getD_eq_getElem?_getD, this]; rfl
      rw [hf]
      refine ⟨_, _, zCpd52_eq r hr hl (fz (i - 1)) (zDim.getD i 0) (hzp i h1 h2) hn (S.p.muZ.getD i []) (hS.muZ h1 h2) (S.p.covZ.getD i []) a ha n w, ?_⟩
      exact isMat_map _ _ _ fun j => by simp
    · rw [yCpd52_eq r hl fns (M + 1) (by omega) (by rw [hF.yLen]; omega) fy (fun i hi => hF.y i (by omega)) hn (fun i => zDim.getD i 0) a
        (fun i hi => ha i (by omega)) n w]
      congr 3
      apply List.map_congr_left
      intro j _
      rw [Finset.sum_range_succ']
      ring
    · congr 1
      refine Finset.sum_congr rfl fun i hi => ?_
      rw [h i (Finset.mem_range.mp hi)]
  · have key : ∀ p : List ℝ, IsPmf p → p.length = 10 → meanOf (pred (fy 0)) S.z0.support p = pred (fy 0) (S.z0.support.getD 0 []) := by
      intro p hp h10
      have hm : ∀ k, k < 10 → S.z0.support.getD k [] ∈ S.z0.support := by
        intro k hk
        rw [List.getD_eq_getElem _ _ (by rw [hS.wf.1]; exact hk)]
        exact List.getElem_mem _
      unfold meanOf
      rw [Finset.sum_congr rfl fun k hk => by
        rw [hconst _ (hm k (by have := Finset.mem_range.mp hk; omega)) _ (hm 0 (by omega))], ← Finset.sum_mul]
      have hs : ∑ k ∈ Finset.range p.length, p.getD k 0 = p.sum := by
        rw [← sum_range_list]
        congr 1
        apply List.ext_getElem
        · simp
        · intro i h1 h2
          simp [h2]
      rw [hs, hp.2, one_mul]
    rw [htau, key _ hS.p1 hS.len1, key _ hS.p0 hS.len0, sub_self]

/-! ## Instances -/

/-- A stream of numbers: support points `11/5` (the first) and `6/5`, and candidates that are all the same, with a positive effect. -/
noncomputable def posStream (k : Nat) : ℝ := if k = 8 then 2 else if k < 18 then 1 else if (k - 18) % 20 = 10 then 1 else 0

/-- Generators with these numbers. -/
noncomputable def posGens : Gens Nat Unit where
  gauss k := (posStream k, k + 1)
  unif _ _ k := (1, k)
  globalUnif _ _ _ := (1, ())
  randint _ _ := (0, ())

theorem posGens_drawN (n k : Nat) : LinGen.drawN posGens.gauss n k = ((List.range n).map fun i => posStream (k + i), k + n) := by
  induction n generalizing k with
  | zero => rfl
  | succ n ih =>
    rw [LinGen.drawN]
    simp only [posGens]
    change (match LinGen.drawN posGens.gauss n (k + 1) with | (l, w'') => (posStream k :: l, w'')) = _
    rw [ih, List.range_succ_eq_map]
    simp [Function.comp_def, Nat.add_assoc, Nat.add_comm 1]

theorem posGens_drawAt (k j : Nat) : worldAfter (stdNormals posGens) j k = k + 10 * j ∧
    drawAt (stdNormals posGens) k j = (List.range 10).map fun i => posStream (k + 10 * j + i) := by
  have h : worldAfter (stdNormals posGens) j k = k + 10 * j := by
    induction j with
    | zero => rfl
    | succ j ih =>
      rw [worldAfter_succ, ih, stdNormals, posGens_drawN]
      simp; ring
  refine ⟨h, ?_⟩
  rw [drawAt, h, stdNormals, posGens_drawN]

theorem pos_pair (j : Nat) : pairAt (stdNormals posGens) 18 j =
    (gibbs (List.replicate 10 0), gibbs ((2 / 5) :: List.replicate 9 0)) := by
  unfold pairAt
  rw [(posGens_drawAt 18 (2 * j)).2, (posGens_drawAt 18 (2 * j + 1)).2]
  have h1 : ∀ i, i < 10 → posStream (18 + 10 * (2 * j) + i) = 0 := by
    intro i hi
    unfold posStream
    rw [if_neg (by omega), if_neg (by omega), if_neg (by omega)]
  have h2 : ∀ i, i < 10 → posStream (18 + 10 * (2 * j + 1) + i) = if i = 0 then 1 else 0 := by
    intro i hi
    unfold posStream
    rw [if_neg (by omega), if_neg (by omega)]
    by_cases h : i = 0
    · rw [if_pos (by omega), if_pos h]
    · rw [if_neg (by omega), if_neg h]
  have e1 : (List.range 10).map (fun i => posStream (18 + 10 * (2 * j) + i)) = List.replicate 10 0 := by
    rw [List.map_congr_left fun i hi => h1 i (List.mem_range.mp hi)]; rfl
  have e2 : (List.range 10).map (fun i => posStream (18 + 10 * (2 * j + 1) + i)) = 1 :: List.replicate 9 0 := by
    rw [List.map_congr_left fun i hi => h2 i (List.mem_range.mp hi)]; rfl
  rw [e1, e2]
  simp

theorem pos_params : ∃ p, params posGens (strength52 posGens) [1, 1] [0, 1] 1 (0, ()) = (.ok p, (8, ())) ∧ p.muZ.getD 0 [] = [1 / 5] ∧ p.beta.getD 0 [] = [1 / 5] := by
  unfold params
  simp only [List.range'_one, paramLoop, paramStep, at', strength52, onGlobal, onLocal, scaled, stdNormals, Py.bind_apply, Py.lift_apply, Py.pure_apply,
    LinGen.drawN, LinGen.drawRows, posGens, List.getElem?_cons_zero, List.getElem?_cons_succ]
  refine ⟨_, rfl, ?_, ?_⟩
  · simp [posStream]
  · simp [posStream]

/-- With these generators the selected effect is positive. -/
theorem pos_setup : ∃ S s', setup posGens (strength52 posGens) [1, 1] [0, 1] 1 1 (0, ()) = some (.ok S, s') ∧ 0 < S.sel.tau := by
  obtain ⟨p, hp, hm, hb⟩ := pos_params
  have hrows : LinGen.drawRows posGens.gauss 1 supportSize 8 = ([2] :: List.replicate 9 [1], 18) := by
    simp [supportSize, LinGen.drawRows, LinGen.drawN, posGens, posStream]
  have hn : ∀ n w, (stdNormals posGens n w).1.length = n := fun n w => drawN_length _ _ _
  let z : Z0 := ⟨1, ([2] :: List.replicate 9 [1]).map fun row => List.zipWith (· + ·) (p.muZ.getD 0 []) row, p.beta.getD 0 []⟩
  have hwf : z.WF := by
    refine ⟨by simp [z], ?_, by simp only [z, hb]; rfl⟩
    intro row hrow
    simp only [z, hm, List.mem_map] at hrow
    obtain ⟨row, hr, rfl⟩ := hrow
    simp at hr
    rcases hr with rfl | rfl <;> simp [z]
  have htau : ∀ k, tauAt (stdNormals posGens) z.support z.beta0 18 k =
      1 / 5 * (Real.exp (2 / 5) / (Real.exp (2 / 5) + 9) - 1 / 10) := by
    intro k
    unfold tauAt
    rw [pos_pair]
    have : Real.exp (2 / 5) + 9 ≠ 0 := by positivity
    simp only [gap, meanScore, gibbs, z, hm, hb]
    simp [List.replicate]
    field_simp
    ring
  have hpos : 0 < 1 / 5 * (Real.exp (2 / 5) / (Real.exp (2 / 5) + 9) - 1 / 10) := by
    have h1 : (1 : ℝ) < Real.exp (2 / 5) := Real.one_lt_exp_iff.mpr (by norm_num)
    have h2 : 1 / 10 < Real.exp (2 / 5) / (Real.exp (2 / 5) + 9) := by
      rw [div_lt_div_iff₀ (by norm_num) (by positivity)]
      linarith
    linarith
  obtain ⟨sel, w', h1, h2, -⟩ := (C61_selection_partial (stdNormals posGens) hn z hwf 18).2.1 (by rw [htau]; exact hpos) 10 le_rfl (by rw [htau, htau])
    (fun j a b => by omega) 1 (by omega)
  refine ⟨⟨p, z, sel⟩, (w', ()), ?_, ?_⟩
  · unfold setup
    rw [hp]
    simp only [setupZ0, at', List.getElem?_cons_zero, hrows]
    generalize hsel : select (stdNormals posGens) _ 1 18 = t
    have : t = select (stdNormals posGens) z 1 18 := hsel.symm
    rw [this, h1]
  · show 0 < sel.tau
    rw [h2, htau]
    exact hpos

/-- A regressor that always predicts zero. -/
noncomputable def zeroLib : Nonlinear.GPLib Unit Unit ℝ where
  defaultKernel := ()
  sampleY _ _ x _ := x.map fun _ => 0
  fit _ _ _ _ := ()
  predict _ x := x.map fun _ => 0

/-- Section 5.1: the selected effect is positive and it is the effect. -/
example : ∃ S s', setup posGens (strength52 posGens) [1, 1] [0, 1] 1 1 (0, ()) = some (.ok S, s') ∧
    0 < ∫ u in Set.Ico (0 : ℝ) 1, (cellScore (fun z => inner z (S.p.beta.getD 0 [])) S.z0.support S.sel.p1 u -
      cellScore (fun z => inner z (S.p.beta.getD 0 [])) S.z0.support S.sel.p0 u) := by
  obtain ⟨S, s', h, hpos⟩ := pos_setup
  refine ⟨S, s', h, ?_⟩
  have h2 := (C75_effect51 demoNoise demoNoise_good posGens (strength52 posGens) (fun s => ⟨_, _, rfl⟩) [1, 1] [0, 1] 1 le_rfl (by simp) (by simp) 1 _ _ S h).2.2
  simp only [if_true, zero_ne_one, if_false] at h2
  rcases h2 with ⟨-, h2⟩ | ⟨h2, -⟩
  · rw [h2]; exact hpos
  · rw [h2] at hpos; exact absurd hpos (lt_irrefl _)

/-- Section 5.2: the selected effect is positive but the effect is zero. -/
example : ∃ S fns s', setup52 zeroLib posGens () [1, 1] [0, 1] 1 1 (0, ()) = some (.ok (S, fns), s') ∧ 0 < S.sel.tau ∧
    ∫ u in Set.Ico (0 : ℝ) 1, (cellScore (fun _ => 0) S.z0.support S.sel.p1 u - cellScore (fun _ => 0) S.z0.support S.sel.p0 u) = 0 := by
  obtain ⟨S, s', h, hpos⟩ := pos_setup
  obtain ⟨fns, -, -, -, w', e, -⟩ := functions52_eq zeroLib posGens () [1, 1] [0, 1] 1 (by simp) (by simp) s'
  have hset : setup52 zeroLib posGens () [1, 1] [0, 1] 1 1 (0, ()) = some (.ok (S, fns), (s'.1, w')) := by
    unfold setup52
    rw [h]
    dsimp only
    rw [e]
  refine ⟨S, fns, (s'.1, w'), hset, hpos, ?_⟩
  obtain ⟨f, -, -, -, h3⟩ := C75_effect52_violated demoNoise demoNoise_good zeroLib (fun _ _ => 0) (fun _ _ => rfl) posGens () [1, 1] [0, 1] 1 le_rfl (by simp) (by simp)
    (by simp) 1 _ _ S fns hset
  have := h3 (fun _ _ _ _ => rfl)
  simpa using this

end Section5
end Verif
