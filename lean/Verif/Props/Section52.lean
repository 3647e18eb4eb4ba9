import Verif.Lemmas.Section52
import Verif.Props.Section5

/-!
# Property C74: the example of Section 5.2
-/

set_option linter.unusedSectionVars false
set_option linter.unusedSimpArgs false

namespace Verif
namespace Section5
open Cpds Paper
variable {R W K F : Type}

/-- **C74** The example of Section 5.2, for every `M ≥ 1`, all positive dimensions, every stream of random numbers, every regressor
predicting row by row and every `n ≥ 1`: with exactly `M + 1` dimensions in both lists the SCM is accepted, `generate n` never
raises, and the sample consists of solutions of the structural equations, computed from one stream of random numbers none of
which is used twice.  There is one function for each path only: all components of `Z_i` have the same mean. -/
theorem C74_generates (r : Noise W ℝ) (hr : GoodNoise r) (lib : Nonlinear.GPLib K F ℝ) (pred : F → List ℝ → ℝ) (hl : RowWise lib pred) (g : Gens R W) (kernel : K)
    (zDim vDim : List Nat) (M : Nat) (hM : 1 ≤ M) (hz : zDim.length = M + 1) (hv : vDim.length = M + 1) (hpos : (∀ d ∈ zDim, 1 ≤ d) ∧ ∀ d ∈ vDim.tail, 1 ≤ d)
    (fuel : Nat) (s0 s1 : R × W) (S : Setup) (fns : Fns F)
    (hsetup : setup52 lib g kernel zDim vDim M fuel s0 = some (.ok (S, fns), s1)) :
    ∃ fx fz fy : Nat → F, ∀ n, 1 ≤ n → ∃ scm, Paper.scm M (cpds52 r lib S fns M) = .ok scm ∧ ∀ w, ∃ smp w', scm.generate n w = (.ok smp, w') ∧
      ∃ s wAt, Equations52 r S (fun i => pred (fx i)) (fun i => pred (fz i)) (fun i => pred (fy i)) zDim vDim M n s wAt ∧
        Streams r S M n w w' wAt ∧ smp.exp = s "X" ∧ smp.rsp = s "Y" ∧ IsMat n (totalDim zDim vDim M) smp.cov ∧
        ∀ j, j < n → smp.cov.row? j = some (rowAt (s "Z0") j ++
          (List.range M).flatMap fun i => rowAt (s ("V" ++ toString (i + 1))) j ++ rowAt (s ("Z" ++ toString (i + 1))) j) := by
  obtain ⟨fx, fz, fy, hS, hF⟩ : ∃ fx fz fy, GoodSetup (fun _ => True) zDim vDim M S ∧ GoodFns zDim vDim M fns fx fz fy := by
    rcases setup52_good lib g kernel zDim vDim M hM (by omega) (by omega) fuel s0 with h | ⟨S', fns', fx, fz, fy, s', h, h', h''⟩
    · rw [h] at hsetup; cases hsetup
    · rw [h] at hsetup; cases hsetup; exact ⟨fx, fz, fy, h', h''⟩
  have hzp : ∀ i, 1 ≤ i → i ≤ M → 1 ≤ zDim.getD i 0 := by
    intro i a b
    rw [List.getD_eq_getElem _ _ (by omega)]
    exact hpos.1 _ (List.getElem_mem _)
  refine ⟨fx, fz, fy, fun n hn => ?_⟩
  obtain ⟨t1, t2, t3, t4⟩ := cpds52_total r lib S fns M
  obtain ⟨c1, c2, c3, c4⟩ := cpds52_get r lib S fns M
  obtain ⟨v1, v2, v3⟩ := paper_valid M (cpds52 r lib S fns M) t1 t2 t3 t4
  refine ⟨_, v1, fun w => ?_⟩
  have hty : ∀ v ∈ (paperScm M (cpds52 r lib S fns M)).varNames,
      (paperScm M (cpds52 r lib S fns M)).TypedAt n (Shape zDim vDim M n (IsMat n (zDim.getD 0 0))) v :=
    fun v hv' => typed52 hS hF r hr hl hM hn hzp v hv' (fun _ => hv) (fun _ => hz)
  have hcovs : (paperScm M (cpds52 r lib S fns M)).covVariables = "Z0" :: pathNames M := (graph_inv M).1
  obtain ⟨smp, w', hg⟩ := SCM.generate_typed (paperScm M (cpds52 r lib S fns M)) n _ hty v2 (by rw [hcovs]; simp) (by
    intro v hv a ha
    rw [hcovs, List.mem_cons, mem_pathNames] at hv
    rcases hv with rfl | ⟨i, h1, h2, rfl | rfl⟩
    · exact (ha.z0 rfl).len
    · exact (ha.v i h1 h2 rfl).len
    · exact (ha.z i h1 h2 rfl).len) v3 w
  obtain ⟨s, ws, hrun, hw, hw', h3, h4, h5, h6, h7⟩ := SCM.C15_generate_run (paperScm M (cpds52 r lib S fns M)) (graph_nodup M) v2.cov v2.treatment v2.response
    n w w' smp hg
  have hshape := hrun.shape _ hty
  have hmem : ∀ v, (∃ i, 1 ≤ i ∧ i ≤ M ∧ (v = vName i ∨ v = zName i)) ∨ v = "X" ∨ v = "Z0" ∨ v = "Y" →
      Shape zDim vDim M n (IsMat n (zDim.getD 0 0)) v (s v) := fun v h => hshape v ((mem_graph_vars M v).mpr h)
  have sv : ∀ i, 1 ≤ i → i ≤ M → IsMat n (vDim.getD i 0) (s (vName i)) := fun i a b => (hmem _ (.inl ⟨i, a, b, .inl rfl⟩)).v i a b rfl
  have sz : ∀ i, 1 ≤ i → i ≤ M → IsMat n (zDim.getD i 0) (s (zName i)) := fun i a b => (hmem _ (.inl ⟨i, a, b, .inr rfl⟩)).z i a b rfl
  have sz0 : IsMat n (zDim.getD 0 0) (s "Z0") := (hmem "Z0" (by simp)).z0 rfl
  obtain ⟨wAt, d1, d2, d3, d4, d5, d6, d7⟩ := paper_run M n hM (cpds52 r lib S fns M) _ _ _
    (fun i => vCpd r (S.p.muV.getD i []) (S.p.covV.getD i [])) (fun i => zCpd52 r lib (fns.fZ.getD (i - 1) []) (S.p.muZ.getD i []) (S.p.covZ.getD i []))
    c1 c2 c3 c4 s ws hrun w w' hw hw'
  have hn' : smp.cov.len = n := by
    rw [← h6 "Z0" (by rw [hcovs]; simp)]
    exact sz0.len
  have hmat : IsMat n (totalDim zDim vDim M) smp.cov := by
    obtain ⟨k, rows, e⟩ := generate_d2 hg
    exact isMat_cov e s hn' (by rw [h5, hcovs]) (fun j hj => by rw [h7 j hj, hcovs]) sz0 sv sz
  have ez : ∀ i, 1 ≤ i → i ≤ M → ∀ w1, zCpd52 r lib (fns.fZ.getD (i - 1) []) (S.p.muZ.getD i []) (S.p.covZ.getD i []) n [s (vName i)] w1 =
      (.ok (.d2 (zDim.getD i 0) ((List.range n).map fun j => (List.range (zDim.getD i 0)).map fun l =>
        pred (fz (i - 1)) (rowAt (s (vName i)) j) +
        (nthDraw (r.mvn (S.p.muZ.getD i []) (S.p.covZ.getD i [])) w1 j).getD l 0)), afterDraws (r.mvn (S.p.muZ.getD i []) (S.p.covZ.getD i [])) w1 n) := by
    intro i a b w1
    have hf : fns.fZ.getD (i - 1) [] = List.replicate (zDim.getD i 0) (fz (i - 1)) := by
      have := hF.z (i - 1) (by omega)
      rw [show i - 1 + 1 = i by omega] at this
      rw [List.getD_eq_getElem?_getD, this]; rfl
    rw [hf]
    exact zCpd52_eq r hr hl (fz (i - 1)) (zDim.getD i 0) (hzp i a b) hn (S.p.muZ.getD i []) (hS.muZ a b) (S.p.covZ.getD i [])
      (s (vName i)) (sv i a b) n w1
  have ex := xCpd52_eq r hr hl fns M hM (by rw [hF.xLen]; omega) fx (fun i hi => hF.x i (by omega)) hn (fun i => vDim.getD (i + 1) 0) (fun i => s (vName (i + 1)))
      (fun i hi => sv (i + 1) (by omega) (by omega)) n (wAt "X")
  rw [d5] at ex
  simp only [Prod.mk.injEq, Except.ok.injEq] at ex
  obtain ⟨ex1, ex2⟩ := ex
  have ey := yCpd52_eq r hl fns (M + 1) (by omega) (by rw [hF.yLen]; omega) fy (fun i hi => hF.y i (by omega)) hn (fun i => zDim.getD i 0) (fun i => s (zName i))
    (fun i hi => by
      rcases Nat.eq_zero_or_pos i with rfl | hi'
      · rw [← z0_eq]; exact sz0
      · exact sz i hi' (by omega)) n (wAt "Y")
  rw [d7] at ey
  simp only [Prod.mk.injEq, Except.ok.injEq] at ey
  obtain ⟨ey1, ey2⟩ := ey
  obtain ⟨a0, z1, z2, z3⟩ := z0Cpd_eq r hr.unif S hS.wf hS.p0 hS.len0 hS.p1 hS.len1 _
    (fun j => show (if nthDraw r.unif (wAt "X") j < r.sig (∑ i ∈ Finset.range M, pred (fx i) (rowAt (s (vName (i + 1))) j)) then (1 : ℝ) else 0) = 0 ∨
      (if nthDraw r.unif (wAt "X") j < r.sig (∑ i ∈ Finset.range M, pred (fx i) (rowAt (s (vName (i + 1))) j)) then (1 : ℝ) else 0) = 1 by split <;> simp) n n hn (wAt "Z0")
  rw [← ex1, d6] at z1
  simp only [Prod.mk.injEq, Except.ok.injEq] at z1
  obtain ⟨z1, z4⟩ := z1
  rw [← z1] at z3
  have hzz : ∀ i, 1 ≤ i → i ≤ M → s (zName i) = .d2 (zDim.getD i 0) ((List.range n).map fun j => (List.range (zDim.getD i 0)).map fun l =>
        pred (fz (i - 1)) (rowAt (s (vName i)) j) +
        (nthDraw (r.mvn (S.p.muZ.getD i []) (S.p.covZ.getD i [])) (wAt (zName i)) j).getD l 0) := by
    intro i a b
    rcases Nat.lt_or_ge i M with h | h
    · have := (d3 i a h).symm.trans (ez i a b (wAt (zName i)))
      simp only [Prod.mk.injEq, Except.ok.injEq] at this
      exact this.1
    · obtain rfl : i = M := by omega
      have := d4.symm.trans (ez i a b (wAt (zName i)))
      simp only [Prod.mk.injEq, Except.ok.injEq] at this
      exact this.1
  have hvv : ∀ i, 1 ≤ i → i ≤ M → s (vName i) = .d2 (vDim.getD i 0) ((List.range n).map (nthDraw (r.mvn (S.p.muV.getD i []) (S.p.covV.getD i [])) (wAt (vName i)))) ∧
      wAt (zName i) = afterDraws (r.mvn (S.p.muV.getD i []) (S.p.covV.getD i [])) (wAt (vName i)) n := by
    intro i a b
    have := (d2 i a b).symm.trans (vCpd_eq r _ _ n [] (wAt (vName i)))
    simp only [Prod.mk.injEq, Except.ok.injEq] at this
    rw [hS.muV a b] at this
    exact this
  refine ⟨smp, w', hg, s, wAt, ⟨?_, ?_, ex1, ⟨sz0, ?_⟩, ?_⟩, ⟨d1, fun i a b => (hvv i a b).2, ?_, ?_, ex2, z4, ey2⟩, h3, h4, hmat, ?_⟩
  · intro i a b
    refine ⟨sv i a b, fun j hj => ?_⟩
    show rowAt (s (vName i)) j = _
    rw [(hvv i a b).1, rowAt_d2 _ _ _ _ hj]
    rfl
  · intro i a b
    refine ⟨sz i a b, fun j l hj hl => ?_⟩
    show (rowAt (s (zName i)) j).getD l 0 = _
    rw [hzz i a b, rowAt_d2 _ _ _ _ hj, getD_map_range _ _ _ hl]
    rfl
  · intro j hj
    obtain ⟨k, k1, k2⟩ := z3 j hj
    refine ⟨k, ?_, k2⟩
    rw [ex1, rowAt_d1 _ _ _ hj]
    simpa using k1
  · rw [ey1, z0_eq]
    congr 1
    apply List.map_congr_left
    intro j _
    rw [Finset.sum_range_succ', add_comm (Finset.sum _ _)]
    rfl
  · intro i a b
    have := (d3 i a b).symm.trans (ez i a b.le (wAt (zName i)))
    simp only [Prod.mk.injEq, Except.ok.injEq] at this
    exact this.2
  · have := d4.symm.trans (ez M hM le_rfl (wAt (zName M)))
    simp only [Prod.mk.injEq, Except.ok.injEq] at this
    exact this.2
  · intro j hj
    rw [h7 j (by omega), hcovs]
    congr 1
    rw [List.map_cons, List.flatten_cons]
    congr 1
    rw [pathNames, List.range'_eq_map_range, ← List.flatMap_def, List.flatMap_assoc, List.flatMap_map]
    congr 1
    funext i
    simp [rowAt, vName, zName, Nat.add_comm]

/-- **C74 (violated)** Section 5.1 ignores surplus entries of the lists of dimensions (`C73_generates`).  Section 5.2 makes one
function for each entry, so the SCM is accepted but no sample can be drawn: `X` (surplus in `v_dim`) or `Y` (surplus in
`z_dim`) raises an `IndexError`. -/
theorem C74_surplus_violated (r : Noise W ℝ) (hr : GoodNoise r) (lib : Nonlinear.GPLib K F ℝ) (pred : F → List ℝ → ℝ) (hl : RowWise lib pred) (g : Gens R W) (kernel : K)
    (zDim vDim : List Nat) (M : Nat) (hM : 1 ≤ M) (hz : M < zDim.length) (hv : M < vDim.length) (hlong : M + 1 < zDim.length ∨ M + 1 < vDim.length)
    (hpos : (∀ d ∈ zDim, 1 ≤ d) ∧ ∀ d ∈ vDim.tail, 1 ≤ d)
    (fuel : Nat) (s0 s1 : R × W) (S : Setup) (fns : Fns F)
    (hsetup : setup52 lib g kernel zDim vDim M fuel s0 = some (.ok (S, fns), s1)) (n : Nat) (hn : 1 ≤ n) :
    ∃ scm, Paper.scm M (cpds52 r lib S fns M) = .ok scm ∧ ∀ w, ∃ w', scm.generate n w = (.error .indexError, w') := by
  obtain ⟨fx, fz, fy, hS, hF⟩ : ∃ fx fz fy, GoodSetup (fun _ => True) zDim vDim M S ∧ GoodFns zDim vDim M fns fx fz fy := by
    rcases setup52_good lib g kernel zDim vDim M hM (by omega) (by omega) fuel s0 with h | ⟨S', fns', fx, fz, fy, s', h, h', h''⟩
    · rw [h] at hsetup; cases hsetup
    · rw [h] at hsetup; cases hsetup; exact ⟨fx, fz, fy, h', h''⟩
  have hzp : ∀ i, 1 ≤ i → i ≤ M → 1 ≤ zDim.getD i 0 := by
    intro i a b
    rw [List.getD_eq_getElem _ _ (by omega)]
    exact hpos.1 _ (List.getElem_mem _)
  obtain ⟨t1, t2, t3, t4⟩ := cpds52_total r lib S fns M
  obtain ⟨c1, c2, c3, c4⟩ := cpds52_get r lib S fns M
  obtain ⟨v1, v2, v3⟩ := paper_valid M (cpds52 r lib S fns M) t1 t2 t3 t4
  refine ⟨_, v1, fun w => ?_⟩
  have hvars : (paperScm M (cpds52 r lib S fns M)).varNames = pathNames M ++ ["X", "Z0", "Y"] := graph_vars M
  have inv := graphInv M
  have hnd : (pathNames M ++ ["X", "Z0", "Y"]).Nodup := by rw [← hvars]; exact graph_nodup M
  have hne : ∀ v ∈ pathNames M, v ≠ "X" ∧ v ≠ "Y" := by
    intro v hv
    rw [List.nodup_append] at hnd
    exact ⟨hnd.2.2 v hv "X" (by simp), hnd.2.2 v hv "Y" (by simp)⟩
  have hty := typed52 hS hF r hr hl hM hn hzp
  by_cases hvl : M + 1 < vDim.length
  · refine SCM.generate_fails _ n (Shape zDim vDim M n (IsMat n (zDim.getD 0 0))) (pathNames M) ["Z0", "Y"] "X" hvars ?_ v2 v3 _ _ inv.x c1 _ ?_ w
    · intro v hv
      exact hty v (by have := hvars; change v ∈ (paperScm M (cpds52 r lib S fns M)).varNames; rw [this, List.mem_append]; exact .inl hv)
        (fun h => absurd h (hne v hv).1) (fun h => absurd h (hne v hv).2)
    · intro s w hsh
      refine ⟨w, ?_⟩
      have := sumFns_short hl fns.fX M (by rw [hF.xLen]; omega) fx (fun i hi => hF.x i (by omega)) hn (fun i => vDim.getD (i + 1) 0) (fun i => s (vName (i + 1)))
        (fun i hi => (hsh (vName (i + 1)) (List.mem_map.mpr ⟨i + 1, by rw [List.mem_range'_1]; omega, rfl⟩)).v (i + 1) (by omega) (by omega) rfl)
      have e : ((List.range' 1 M).map vName).map s = (List.range M).map fun i => s (vName (i + 1)) := by
        simp [List.range'_eq_map_range, Function.comp_def, Nat.add_comm]
      unfold xCpd52
      rw [e, this]
  · refine SCM.generate_fails _ n (Shape zDim vDim M n (IsMat n (zDim.getD 0 0))) (pathNames M ++ ["X", "Z0"]) [] "Y" (by rw [hvars]; simp) ?_ v2 v3 _ _ inv.y c2 _ ?_ w
    · intro v hv
      refine hty v (by have := hvars; change v ∈ (paperScm M (cpds52 r lib S fns M)).varNames; rw [this]; simp at hv ⊢; tauto) (fun _ => by omega) ?_
      rintro rfl
      rw [List.mem_append] at hv
      rcases hv with hv | hv
      · exact absurd rfl (hne "Y" hv).2
      · simp at hv
    · intro s w hsh
      refine ⟨w, ?_⟩
      have := sumFns_short hl fns.fY (M + 1) (by rw [hF.yLen]; omega) fy (fun i hi => hF.y i (by omega)) hn (fun i => zDim.getD i 0) (fun i => s (zName i))
        (fun i hi => by
          rcases Nat.eq_zero_or_pos i with rfl | hi'
          · rw [← z0_eq]; exact (hsh "Z0" (by simp)).z0 rfl
          · exact (hsh (zName i) (List.mem_cons_of_mem _ (List.mem_map.mpr ⟨i, by rw [List.mem_range'_1]; omega, rfl⟩))).z i hi' (by omega) rfl)
      have e : ("Z0" :: (List.range' 1 M).map zName).map s = (List.range (M + 1)).map fun i => s (zName i) := by
        rw [List.range_succ_eq_map, z0_eq]
        simp [List.range'_eq_map_range, Function.comp_def, Nat.add_comm]
      unfold yCpd52
      rw [e, this]

/-- **C74 (violated)** A sample of no units raises a `ValueError`, sklearn's regressor refusing the empty `V1`. -/
theorem C74_empty_violated (r : Noise W ℝ) (lib : Nonlinear.GPLib K F ℝ) (g : Gens R W) (kernel : K)
    (zDim vDim : List Nat) (M : Nat) (hM : 1 ≤ M) (hz : M < zDim.length) (hv : M < vDim.length)
    (fuel : Nat) (s0 s1 : R × W) (S : Setup) (fns : Fns F)
    (hsetup : setup52 lib g kernel zDim vDim M fuel s0 = some (.ok (S, fns), s1)) :
    ∃ scm, Paper.scm M (cpds52 r lib S fns M) = .ok scm ∧ ∀ w, ∃ w', scm.generate 0 w = (.error .valueError, w') := by
  obtain ⟨fx, fz, fy, hS, hF⟩ : ∃ fx fz fy, GoodSetup (fun _ => True) zDim vDim M S ∧ GoodFns zDim vDim M fns fx fz fy := by
    rcases setup52_good lib g kernel zDim vDim M hM (by omega) (by omega) fuel s0 with h | ⟨S', fns', fx, fz, fy, s', h, h', h''⟩
    · rw [h] at hsetup; cases hsetup
    · rw [h] at hsetup; cases hsetup; exact ⟨fx, fz, fy, h', h''⟩
  obtain ⟨t1, t2, t3, t4⟩ := cpds52_total r lib S fns M
  obtain ⟨c1, c2, c3, c4⟩ := cpds52_get r lib S fns M
  obtain ⟨v1, v2, v3⟩ := paper_valid M (cpds52 r lib S fns M) t1 t2 t3 t4
  refine ⟨_, v1, fun w => ?_⟩
  have inv := graphInv M
  obtain ⟨M, rfl⟩ : ∃ k, M = k + 1 := ⟨M - 1, by omega⟩
  have hvars : (paperScm (M + 1) (cpds52 r lib S fns (M + 1))).varNames =
      [vName 1] ++ zName 1 :: ((List.range' 2 M).flatMap (fun i => [vName i, zName i]) ++ ["X", "Z0", "Y"]) := by
    have : (paperScm (M + 1) (cpds52 r lib S fns (M + 1))).varNames = pathNames (M + 1) ++ ["X", "Z0", "Y"] := graph_vars (M + 1)
    rw [this, pathNames, List.range'_succ]
    simp
  refine SCM.generate_fails _ 0 (fun v a => v = vName 1 → ∃ d, a = .d2 d []) [vName 1] _ (zName 1) hvars ?_ v2 v3 _ _ (inv.z 1 le_rfl (by omega))
    (c4 1 le_rfl (by omega)).2 _ ?_ w
  · intro v hv ps cpd hps hcpd s w hsh
    rw [List.mem_singleton] at hv
    subst hv
    have hcpd : (cpds52 r lib S fns (M + 1)).get? (vName 1) = some cpd := hcpd
    rw [(c4 1 le_rfl (by omega)).1] at hcpd; cases hcpd
    rw [vCpd_eq]
    exact ⟨_, _, rfl, fun _ => ⟨_, rfl⟩⟩
  · intro s w hsh
    obtain ⟨d, hd⟩ := hsh (vName 1) (by simp) rfl
    refine ⟨w, ?_⟩
    obtain ⟨b, hb, ⟨rows, hb', hl', -⟩, -⟩ := columnStack_single (n := 0) (d := d) (a := s (vName 1)) ⟨[], hd, rfl, by simp⟩
    obtain rfl := List.length_eq_zero_iff.mp hl'
    subst hb'
    unfold zCpd52 structuralEquation
    simp only [List.map_cons, List.map_nil, Py.bind_apply, Py.lift_apply, nUnits, hb, applyFn]

/-! ## An instance -/

/-- A regressor that predicts the sum of the row plus the number it was fitted with. -/
noncomputable def demoLib : Nonlinear.GPLib Unit ℝ ℝ where
  defaultKernel := ()
  sampleY _ _ x seed := x.map fun _ => seed
  fit _ _ _ y := y.sum
  predict f x := x.map fun row => row.sum + f

theorem demo_setup52 (zDim vDim : List Nat) (M : Nat) (hM : 1 ≤ M) (hz : M < zDim.length) (hv : M < vDim.length) (fuel : Nat) :
    ∃ S fns s', setup52 demoLib demoGens () zDim vDim M fuel ((), ()) = some (.ok (S, fns), s') := by
  obtain ⟨S, s', h⟩ := demo_setup (strength52 demoGens) (fun s => ⟨_, _, rfl⟩) zDim vDim M hM hz hv fuel
  obtain ⟨fns, -, -, -, w', e, -⟩ := functions52_eq demoLib demoGens () zDim vDim M hz hv s'
  refine ⟨S, fns, (s'.1, w'), ?_⟩
  unfold setup52
  rw [h]
  dsimp only
  rw [e]

/-- Two paths, several dimensions. -/
example : ∃ S fns s', setup52 demoLib demoGens () [2, 1, 2] [0, 3, 1] 2 0 ((), ()) = some (.ok (S, fns), s') ∧
    ∃ scm, Paper.scm 2 (cpds52 demoNoise demoLib S fns 2) = .ok scm ∧ ∀ w, ∃ smp w', scm.generate 5 w = (.ok smp, w') := by
  obtain ⟨S, fns, s', h⟩ := demo_setup52 [2, 1, 2] [0, 3, 1] 2 (by simp) (by simp) (by simp) 0
  obtain ⟨fx, fz, fy, hh⟩ := C74_generates demoNoise demoNoise_good demoLib (fun f row => row.sum + f) (fun _ _ => rfl) demoGens () [2, 1, 2] [0, 3, 1] 2
    (by simp) (by simp) (by simp) (by simp) 0 ((), ()) s' S fns h
  obtain ⟨scm, h1, h2⟩ := hh 5 (by simp)
  refine ⟨S, fns, s', h, scm, h1, fun w => ?_⟩
  obtain ⟨smp, w', h3, -⟩ := h2 w
  exact ⟨smp, w', h3⟩

/-- One path, but dimensions for two: Section 5.1 gives a sample, Section 5.2 an `IndexError`. -/
example : ∃ S fns s', setup52 demoLib demoGens () [2, 1, 2] [0, 3, 1] 1 0 ((), ()) = some (.ok (S, fns), s') ∧
    (∃ scm, Paper.scm 1 (cpds52 demoNoise demoLib S fns 1) = .ok scm ∧ ∀ w, ∃ w', scm.generate 5 w = (.error .indexError, w')) ∧
    ∃ S s' scm smp w', setup demoGens (strength51 demoGens) [2, 1, 2] [0, 3, 1] 1 0 ((), ()) = some (.ok S, s') ∧
      Paper.scm 1 (cpds51 demoNoise S 1) = .ok scm ∧ scm.generate 5 () = (.ok smp, w') := by
  obtain ⟨S, fns, s', h⟩ := demo_setup52 [2, 1, 2] [0, 3, 1] 1 (by simp) (by simp) (by simp) 0
  refine ⟨S, fns, s', h, C74_surplus_violated demoNoise demoNoise_good demoLib (fun f row => row.sum + f) (fun _ _ => rfl) demoGens () [2, 1, 2] [0, 3, 1] 1
    (by simp) (by simp) (by simp) (by simp) (by simp) 0 ((), ()) s' S fns h 5 (by simp), ?_⟩
  obtain ⟨S, s', h⟩ := demo_setup (strength51 demoGens) (fun s => ⟨_, _, rfl⟩) [2, 1, 2] [0, 3, 1] 1 (by simp) (by simp) (by simp) 0
  obtain ⟨scm, h1, h2⟩ := C73_generates demoNoise demoNoise_good demoGens (strength51 demoGens) (fun s => ⟨_, _, rfl⟩) [2, 1, 2] [0, 3, 1] 1
    (by simp) (by simp) (by simp) 0 ((), ()) s' S h 5 (by simp)
  obtain ⟨smp, w', h3, -⟩ := h2 ()
  exact ⟨S, s', scm, smp, w', h, h1, h3⟩

example : ∃ S fns s', setup52 demoLib demoGens () [2, 1, 2] [0, 3, 1] 2 0 ((), ()) = some (.ok (S, fns), s') ∧
    ∃ scm, Paper.scm 2 (cpds52 demoNoise demoLib S fns 2) = .ok scm ∧ ∀ w, ∃ w', scm.generate 0 w = (.error .valueError, w') := by
  obtain ⟨S, fns, s', h⟩ := demo_setup52 [2, 1, 2] [0, 3, 1] 2 (by simp) (by simp) (by simp) 0
  exact ⟨S, fns, s', h, C74_empty_violated demoNoise demoLib demoGens () [2, 1, 2] [0, 3, 1] 2 (by simp) (by simp) (by simp) 0 ((), ()) s' S fns h⟩

end Section5
end Verif
