import Verif.Lemmas.Section51
import Verif.Props.SCM

/-!
# Property C73: the example of Section 5.1
-/

set_option linter.unusedSectionVars false
set_option linter.unusedSimpArgs false

namespace Verif
namespace Section5
open Cpds Paper
variable {R W : Type}

/-! ## The parameters -/

theorem paramStep_short (g : Gens R W) (strength : Py (R × W) ℝ) (hst : ∀ s, ∃ x s', strength s = (.ok x, s')) (zDim vDim : List Nat) (i : Nat)
    (p : Params) (s : R × W) :
    ((zDim.length ≤ i ∨ vDim.length ≤ i) → ∃ s', paramStep g strength zDim vDim p i s = (.error .indexError, s')) ∧
    (¬ (zDim.length ≤ i ∨ vDim.length ≤ i) → ∃ p' s', paramStep g strength zDim vDim p i s = (.ok p', s')) := by
  obtain ⟨x, s1, hs1⟩ := hst s
  unfold paramStep
  by_cases hv : i < vDim.length
  · by_cases hz : i < zDim.length
    · refine ⟨fun h => by omega, fun _ => ?_⟩
      simp only [Py.bind_apply, hs1, at'_eq vDim i 0 hv, at'_eq zDim i 0 hz, Py.lift_apply, scaled_eq, onLocal, Py.pure_apply]
      exact ⟨_, _, rfl⟩
    · refine ⟨fun _ => ?_, fun h => by omega⟩
      have : at' zDim i = .error .indexError := by simp [at', Nat.le_of_not_lt hz]
      simp only [Py.bind_apply, hs1, at'_eq vDim i 0 hv, this, Py.lift_apply, scaled_eq]
      exact ⟨_, rfl⟩
  · refine ⟨fun _ => ?_, fun h => by omega⟩
    have : at' vDim i = .error .indexError := by simp [at', Nat.le_of_not_lt hv]
    simp only [Py.bind_apply, hs1, this, Py.lift_apply]
    exact ⟨_, rfl⟩

theorem paramLoop_short (g : Gens R W) (strength : Py (R × W) ℝ) (hst : ∀ s, ∃ x s', strength s = (.ok x, s')) (zDim vDim : List Nat) (is : List Nat)
    (h : ∃ i ∈ is, zDim.length ≤ i ∨ vDim.length ≤ i) (p : Params) (s : R × W) :
    ∃ s', paramLoop g strength zDim vDim is p s = (.error .indexError, s') := by
  induction is generalizing p s with
  | nil => simp at h
  | cons i is ih =>
    obtain ⟨k1, k2⟩ := paramStep_short g strength hst zDim vDim i p s
    rw [paramLoop, Py.bind_apply]
    by_cases hi : zDim.length ≤ i ∨ vDim.length ≤ i
    · obtain ⟨s', e⟩ := k1 hi
      rw [e]
      exact ⟨s', rfl⟩
    · obtain ⟨p', s', e⟩ := k2 hi
      rw [e]
      obtain ⟨i', hi', h'⟩ := h
      rcases List.mem_cons.mp hi' with rfl | hi'
      · exact absurd h' hi
      · exact ih ⟨i', hi', h'⟩ p' s'

/-- **C73** The parameters of both examples, for every stream of random numbers.  With `M ≥ 1` paths and a dimension for
every variable, all parameters are produced: means zero, covariances `1` and `1/10` times the unit matrix, and for every
path one strength `s` (with whatever property `P` the generator guarantees) such that the coefficients of `V_i` in `X`,
of `V_i` in `Z_i` and of `Z_i` in `Y` are normal numbers times `s`, `s / 2` and `2 - s`.  The list of coefficients of `Y`
has one entry too many.  Without paths, `strength` is unbound; with too few dimensions there is an `IndexError`. -/
theorem C73_parameters (g : Gens R W) (P : ℝ → Prop) (strength : Py (R × W) ℝ) (hst : ∀ s, ∃ x s', strength s = (.ok x, s') ∧ P x)
    (zDim vDim : List Nat) (M : Nat) (s : R × W) :
    (1 ≤ M → M < zDim.length → M < vDim.length → ∃ p s', params g strength zDim vDim M s = (.ok p, s') ∧ GoodParams P zDim vDim M p) ∧
    (M = 0 → zDim ≠ [] → ∃ s', params g strength zDim vDim M s = (.error .nameError, s')) ∧
    ((zDim = [] ∨ 1 ≤ M ∧ (zDim.length ≤ M ∨ vDim.length ≤ M)) → ∃ s', params g strength zDim vDim M s = (.error .indexError, s')) := by
  refine ⟨fun hM hz hv => params_ok g P strength hst zDim vDim M hM hz hv s, ?_, ?_⟩
  · rintro rfl hz
    unfold params
    simp only [Py.bind_apply, at'_eq zDim 0 0 (List.length_pos_iff.mpr hz), Py.lift_apply, scaled_eq, List.range'_zero, paramLoop, Py.pure_apply,
      Py.raise_apply]
    exact ⟨_, rfl⟩
  · intro h
    unfold params
    by_cases hz : zDim = []
    · subst hz
      exact ⟨_, rfl⟩
    · simp only [Py.bind_apply, at'_eq zDim 0 0 (List.length_pos_iff.mpr hz), Py.lift_apply, scaled_eq]
      obtain ⟨s', e⟩ := paramLoop_short g strength (fun s => by obtain ⟨x, s', h, -⟩ := hst s; exact ⟨x, s', h⟩) zDim vDim (List.range' 1 M)
        ⟨M, by rw [List.mem_range'_1]; have := (h.resolve_left hz).1; omega, (h.resolve_left hz).2⟩
        { muV := [[]], covV := [[]], muZ := [(LinGen.drawN g.gauss (zDim.getD 0 0) s.1).1.map (1 / 5 * ·)], covZ := [identity (1 / 2) (zDim.getD 0 0)],
          alpha := [(0, [])], gamma := [],
          beta := [(LinGen.drawN g.gauss (zDim.getD 0 0) (LinGen.drawN g.gauss (zDim.getD 0 0) s.1).2).1.map (1 / 5 * ·)], last := none }
        ((LinGen.drawN g.gauss (zDim.getD 0 0) (LinGen.drawN g.gauss (zDim.getD 0 0) s.1).2).2, s.2)
      rw [e]
      exact ⟨_, rfl⟩

/-! ## The samples -/

theorem getD_map_range (f : Nat → ℝ) (d l : Nat) (h : l < d) : ((List.range d).map f).getD l 0 = f l := by simp [h]

theorem z0Cpd_isMat (r : Noise W ℝ) (hr : GoodNoise r) {P : ℝ → Prop} {zDim vDim : List Nat} {M : Nat} {S : Setup} (hS : GoodSetup P zDim vDim M S)
    (n : Nat) (hn : 1 ≤ n) (f : Nat → ℝ) (hf : ∀ j, f j = 0 ∨ f j = 1) (w : W) :
    ∃ a w', z0Cpd r S n [.d1 ((List.range n).map f)] w = (.ok a, w') ∧ IsMat n (zDim.getD 0 0) a := by
  obtain ⟨a, h1, h2, -⟩ := z0Cpd_eq r hr.unif S hS.wf hS.p0 hS.len0 hS.p1 hS.len1 f hf n n hn w
  exact ⟨a, _, h1, by rw [← hS.d]; exact h2⟩

theorem cpds51_total (r : Noise W ℝ) (S : Setup) (M : Nat) :
    (cpds51 r S M).get? "X" ≠ none ∧ (cpds51 r S M).get? "Y" ≠ none ∧ (cpds51 r S M).get? "Z0" ≠ none ∧
    ∀ i, 1 ≤ i → i ≤ M → (cpds51 r S M).get? (vName i) ≠ none ∧ (cpds51 r S M).get? (zName i) ≠ none := by
  obtain ⟨c1, c2, c3, c4⟩ := cpds51_get r S M
  refine ⟨by simp [c1], by simp [c2], by simp [c3], fun i h1 h2 => ⟨by simp [(c4 i h1 h2).1], by simp [(c4 i h1 h2).2]⟩⟩

/-- **C73** The example of Section 5.1 works as described in the paper, for every `M ≥ 1`, all dimensions, every stream of
random numbers and every `n ≥ 1`: the SCM is accepted, `generate n` never raises, and the sample consists of solutions of
the structural equations, computed from one stream of random numbers none of which is used twice.  The covariates are
`Z0, V1, Z1, ..., VM, ZM` side by side. -/
theorem C73_generates (r : Noise W ℝ) (hr : GoodNoise r) (g : Gens R W) (strength : Py (R × W) ℝ) (hst : ∀ s, ∃ x s', strength s = (.ok x, s'))
    (zDim vDim : List Nat) (M : Nat) (hM : 1 ≤ M) (hz : M < zDim.length) (hv : M < vDim.length) (fuel : Nat) (s0 s1 : R × W) (S : Setup)
    (hsetup : setup g strength zDim vDim M fuel s0 = some (.ok S, s1)) (n : Nat) (hn : 1 ≤ n) :
    ∃ scm, Paper.scm M (cpds51 r S M) = .ok scm ∧ ∀ w, ∃ smp w', scm.generate n w = (.ok smp, w') ∧
      ∃ s wAt, Equations51 r S zDim vDim M n s wAt ∧ Streams r S M n w w' wAt ∧ smp.exp = s "X" ∧ smp.rsp = s "Y" ∧ IsMat n (totalDim zDim vDim M) smp.cov ∧
        ∀ j, j < n → smp.cov.row? j = some (rowAt (s "Z0") j ++
          (List.range M).flatMap fun i => rowAt (s ("V" ++ toString (i + 1))) j ++ rowAt (s ("Z" ++ toString (i + 1))) j) := by
  have hS : GoodSetup (fun _ => True) zDim vDim M S := by
    rcases setup_good g (fun _ => True) strength (fun s => by obtain ⟨x, s', h⟩ := hst s; exact ⟨x, s', h, trivial⟩) zDim vDim M hM hz hv fuel s0 with h | ⟨S', s', h, h'⟩
    · rw [h] at hsetup; cases hsetup
    · rw [h] at hsetup; cases hsetup; exact h'
  obtain ⟨t1, t2, t3, t4⟩ := cpds51_total r S M
  obtain ⟨c1, c2, c3, c4⟩ := cpds51_get r S M
  obtain ⟨v1, v2, v3⟩ := paper_valid M (cpds51 r S M) t1 t2 t3 t4
  refine ⟨_, v1, fun w => ?_⟩
  have hty : ∀ v ∈ (paperScm M (cpds51 r S M)).varNames,
      (paperScm M (cpds51 r S M)).TypedAt n (Shape zDim vDim M n (IsMat n (zDim.getD 0 0))) v := by
    intro v hv
    by_cases hy : v = "Y"
    · subst hy; exact typed51_y hS r
    · exact typed51 hS r hr hM (z0Cpd_isMat r hr hS n hn) v hv hy
  have hcovs : (paperScm M (cpds51 r S M)).covVariables = "Z0" :: pathNames M := (graph_inv M).1
  obtain ⟨smp, w', hg⟩ := SCM.generate_typed (paperScm M (cpds51 r S M)) n _ hty v2 (by rw [hcovs]; simp) (by
    intro v hv a ha
    rw [hcovs, List.mem_cons, mem_pathNames] at hv
    rcases hv with rfl | ⟨i, h1, h2, rfl | rfl⟩
    · exact (ha.z0 rfl).len
    · exact (ha.v i h1 h2 rfl).len
    · exact (ha.z i h1 h2 rfl).len) v3 w
  obtain ⟨s, ws, hrun, hw, hw', h3, h4, h5, h6, h7⟩ := SCM.C15_generate_run (paperScm M (cpds51 r S M)) (graph_nodup M) v2.cov v2.treatment v2.response
    n w w' smp hg
  have hshape := hrun.shape _ hty
  have hmem : ∀ v, (∃ i, 1 ≤ i ∧ i ≤ M ∧ (v = vName i ∨ v = zName i)) ∨ v = "X" ∨ v = "Z0" ∨ v = "Y" →
      Shape zDim vDim M n (IsMat n (zDim.getD 0 0)) v (s v) := fun v h => hshape v ((mem_graph_vars M v).mpr h)
  have sv : ∀ i, 1 ≤ i → i ≤ M → IsMat n (vDim.getD i 0) (s (vName i)) := fun i a b => (hmem _ (.inl ⟨i, a, b, .inl rfl⟩)).v i a b rfl
  have sz : ∀ i, 1 ≤ i → i ≤ M → IsMat n (zDim.getD i 0) (s (zName i)) := fun i a b => (hmem _ (.inl ⟨i, a, b, .inr rfl⟩)).z i a b rfl
  have sz0 : IsMat n (zDim.getD 0 0) (s "Z0") := (hmem "Z0" (by simp)).z0 rfl
  obtain ⟨wAt, d1, d2, d3, d4, d5, d6, d7⟩ := paper_run M n hM (cpds51 r S M) _ _ _
    (fun i => vCpd r (S.p.muV.getD i []) (S.p.covV.getD i [])) (fun i => zCpd51 r (S.p.alpha.getD i (0, [])) (S.p.muZ.getD i []) (S.p.covZ.getD i []))
    c1 c2 c3 c4 s ws hrun w w' hw hw'
  have hn' : smp.cov.len = n := by
    rw [← h6 "Z0" (by rw [hcovs]; simp)]
    exact sz0.len
  have hmat : IsMat n (totalDim zDim vDim M) smp.cov := by
    obtain ⟨k, rows, e⟩ := generate_d2 hg
    exact isMat_cov e s hn' (by rw [h5, hcovs]) (fun j hj => by rw [h7 j hj, hcovs]) sz0 sv sz
  have ez : ∀ i, 1 ≤ i → i ≤ M → ∀ w1, zCpd51 r (S.p.alpha.getD i (0, [])) (S.p.muZ.getD i []) (S.p.covZ.getD i []) n [s (vName i)] w1 =
      (.ok (.d2 (zDim.getD i 0) ((List.range n).map fun j => (List.range (zDim.getD i 0)).map fun l =>
        inner (rowAt (s (vName i)) j) ((S.p.alpha.getD i (0, [])).2.map fun row => row.getD l 0) +
        (nthDraw (r.mvn (S.p.muZ.getD i []) (S.p.covZ.getD i [])) w1 j).getD l 0)), afterDraws (r.mvn (S.p.muZ.getD i []) (S.p.covZ.getD i [])) w1 n) := by
    intro i a b w1
    obtain ⟨a1, a2⟩ := hS.alphaLen a b
    have := zCpd51_eq r hr.mvn n (vDim.getD i 0) (zDim.getD i 0) (S.p.alpha.getD i (0, [])).2 a2 (S.p.muZ.getD i []) (hS.muZ a b)
      (S.p.covZ.getD i []) n (s (vName i)) (sv i a b) w1
    rw [← this, ← a1]
  have ex := xCpd51_eq r hr.sig S n M hM hS.p.gamma (fun i => vDim.getD (i + 1) 0) (fun i hi => hS.gammaLen hi) (fun i => s (vName (i + 1)))
      (fun i hi => sv (i + 1) (by omega) (by omega)) n (wAt "X")
  rw [d5] at ex
  simp only [Prod.mk.injEq, Except.ok.injEq] at ex
  obtain ⟨ex1, ex2⟩ := ex
  have ey := yCpd51_eq r S n M hS.p.beta (fun i => zDim.getD i 0) (fun i hi => hS.betaLen hi) (fun i => s (zName i))
    (fun i hi => by
      rcases Nat.eq_zero_or_pos i with rfl | hi'
      · rw [← z0_eq]; exact sz0
      · exact sz i hi' hi) n (wAt "Y")
  rw [d7] at ey
  simp only [Prod.mk.injEq, Except.ok.injEq] at ey
  obtain ⟨ey1, ey2⟩ := ey
  obtain ⟨a0, z1, z2, z3⟩ := z0Cpd_eq r hr.unif S hS.wf hS.p0 hS.len0 hS.p1 hS.len1 _
    (fun j => show (if nthDraw r.unif (wAt "X") j < r.sig (∑ i ∈ Finset.range M, inner (rowAt (s (vName (i + 1))) j) (S.p.gamma.getD i [])) then (1 : ℝ) else 0) = 0 ∨
      (if nthDraw r.unif (wAt "X") j < r.sig (∑ i ∈ Finset.range M, inner (rowAt (s (vName (i + 1))) j) (S.p.gamma.getD i [])) then (1 : ℝ) else 0) = 1 by split <;> simp) n n hn (wAt "Z0")
  rw [← ex1, d6] at z1
  simp only [Prod.mk.injEq, Except.ok.injEq] at z1
  obtain ⟨z1, z4⟩ := z1
  rw [← z1] at z3
  have hzz : ∀ i, 1 ≤ i → i ≤ M → s (zName i) = .d2 (zDim.getD i 0) ((List.range n).map fun j => (List.range (zDim.getD i 0)).map fun l =>
        inner (rowAt (s (vName i)) j) ((S.p.alpha.getD i (0, [])).2.map fun row => row.getD l 0) +
        (nthDraw (r.mvn (S.p.muZ.getD i []) (S.p.covZ.getD i [])) (wAt (zName i)) j).getD l 0) := by
    intro i a b
    rcases Nat.lt_or_ge i M with h | h
    · have := (d3 i a h).symm.trans (ez i a b (wAt (zName i)))
      simp only [Prod.mk.injEq, Except.ok.injEq] at this
      exact this.1
    · obtain rfl : i = M := by omega
      have := d4.symm.trans (ez i a b (wAt (zName i)))
      simp only [Prod.mk.injEq, Except.ok.injEq] at this
      exact this.1
  have hvv : ∀ i, 1 ≤ i → i ≤ M → s (vName i) = .d2 (vDim.getD i 0) ((List.range n).map (nthDraw (r.mvn (S.p.muV.getD i []) (S.p.covV.getD i [])) (wAt (vName i)))) ∧
      wAt (zName i) = afterDraws (r.mvn (S.p.muV.getD i []) (S.p.covV.getD i [])) (wAt (vName i)) n := by
    intro i a b
    have := (d2 i a b).symm.trans (vCpd_eq r _ _ n [] (wAt (vName i)))
    simp only [Prod.mk.injEq, Except.ok.injEq] at this
    rw [hS.muV a b] at this
    exact this
  refine ⟨smp, w', hg, s, wAt, ⟨?_, ?_, ex1, ⟨sz0, ?_⟩, ?_⟩, ⟨d1, fun i a b => (hvv i a b).2, ?_, ?_, ex2, z4, ey2⟩, h3, h4, hmat, ?_⟩
  · intro i a b
    refine ⟨sv i a b, fun j hj => ?_⟩
    show rowAt (s (vName i)) j = _
    rw [(hvv i a b).1, rowAt_d2 _ _ _ _ hj]
    rfl
  · intro i a b
    refine ⟨sz i a b, fun j l hj hl => ?_⟩
    show (rowAt (s (zName i)) j).getD l 0 = _
    rw [hzz i a b, rowAt_d2 _ _ _ _ hj, getD_map_range _ _ _ hl]
    rfl
  · intro j hj
    obtain ⟨k, k1, k2⟩ := z3 j hj
    refine ⟨k, ?_, k2⟩
    rw [ex1, rowAt_d1 _ _ _ hj]
    simpa using k1
  · rw [ey1, ← z0_eq]
    rfl
  · intro i a b
    have := (d3 i a b).symm.trans (ez i a b.le (wAt (zName i)))
    simp only [Prod.mk.injEq, Except.ok.injEq] at this
    exact this.2
  · have := d4.symm.trans (ez M hM le_rfl (wAt (zName M)))
    simp only [Prod.mk.injEq, Except.ok.injEq] at this
    exact this.2
  · intro j hj
    rw [h7 j (by omega), hcovs]
    congr 1
    rw [List.map_cons, List.flatten_cons]
    congr 1
    rw [pathNames, List.range'_eq_map_range, ← List.flatMap_def, List.flatMap_assoc, List.flatMap_map]
    congr 1
    funext i
    simp [rowAt, vName, zName, Nat.add_comm]

/-- **C73 (violated)** A sample of no units: `Z0` comes out as an array of shape `(0,)` instead of `(0, d)`, so the product with
its coefficients in `y_cpd` raises a `ValueError` whenever `Z0` has a component. -/
theorem C73_empty_violated (r : Noise W ℝ) (hr : GoodNoise r) (g : Gens R W) (strength : Py (R × W) ℝ) (hst : ∀ s, ∃ x s', strength s = (.ok x, s'))
    (zDim vDim : List Nat) (M : Nat) (hM : 1 ≤ M) (hz : M < zDim.length) (hv : M < vDim.length) (h0 : 0 < zDim.getD 0 0) (fuel : Nat) (s0 s1 : R × W) (S : Setup)
    (hsetup : setup g strength zDim vDim M fuel s0 = some (.ok S, s1)) (w : W) :
    ∃ scm w', Paper.scm M (cpds51 r S M) = .ok scm ∧ scm.generate 0 w = (.error .valueError, w') := by
  have hS : GoodSetup (fun _ => True) zDim vDim M S := by
    rcases setup_good g (fun _ => True) strength (fun s => by obtain ⟨x, s', h⟩ := hst s; exact ⟨x, s', h, trivial⟩) zDim vDim M hM hz hv fuel s0 with h | ⟨S', s', h, h'⟩
    · rw [h] at hsetup; cases hsetup
    · rw [h] at hsetup; cases hsetup; exact h'
  obtain ⟨t1, t2, t3, t4⟩ := cpds51_total r S M
  obtain ⟨c1, c2, c3, c4⟩ := cpds51_get r S M
  obtain ⟨v1, v2, v3⟩ := paper_valid M (cpds51 r S M) t1 t2 t3 t4
  have hvars : (paperScm M (cpds51 r S M)).varNames = (pathNames M ++ ["X", "Z0"]) ++ ["Y"] := by
    have : (paperScm M (cpds51 r S M)).varNames = pathNames M ++ ["X", "Z0", "Y"] := graph_vars M
    rw [this]; simp
  have hnd : ((pathNames M ++ ["X", "Z0"]) ++ ["Y"]).Nodup := by rw [← hvars]; exact graph_nodup M
  have hmem : ∀ v ∈ pathNames M ++ ["X", "Z0"], v ∈ (paperScm M (cpds51 r S M)).varNames := by
    intro v hv; rw [hvars, List.mem_append]; exact .inl hv
  have hne : ∀ v ∈ pathNames M ++ ["X", "Z0"], v ≠ "Y" := by
    rintro v hv rfl
    rw [List.nodup_append] at hnd
    exact hnd.2.2 "Y" hv "Y" (by simp) rfl
  obtain ⟨D, w1, h1, h2, h3⟩ := SCM.sampleLoop_typed (paperScm M (cpds51 r S M)) 0 (Shape zDim vDim M 0 fun a => a = .d1 []) (pathNames M ++ ["X", "Z0"]) [] w
    (fun v hv => typed51 (n := 0) (Zs := fun a => a = .d1 []) hS r hr hM (fun f hf w => ⟨.d1 [], w, rfl, rfl⟩) v (hmem v hv) (hne v hv))
    (fun v hv => v2.parents v (hmem v hv)) (fun v hv => v2.cpds v (hmem v hv)) (by simp [Dict.get?])
    (fun j v ps hj hps p hp => by
      right
      have hlt : j < (pathNames M ++ ["X", "Z0"]).length := by
        by_contra hc; rw [List.getElem?_eq_none (by omega)] at hj; simp at hj
      have := v3 j v ps (by rw [hvars, List.getElem?_append_left hlt, hj]) hps p hp
      rw [hvars, List.take_append_of_le_length hlt.le] at this
      exact this)
  have inv := graphInv M
  have hz0 : D.get? "Z0" = some (.d1 []) := by
    obtain ⟨a, ha⟩ := Option.ne_none_iff_exists'.mp (h3 "Z0" (.inr (by simp)))
    rw [ha, (h2 "Z0" a ha).z0 rfl]
  have hpy : (paperScm M (cpds51 r S M)).parents.get? "Y" = some ("Z0" :: (List.range' 1 M).map zName) := inv.y
  have hall : ∀ p ∈ "Z0" :: (List.range' 1 M).map zName, D.get? p ≠ none := by
    intro p hp
    refine h3 p (.inr ?_)
    rcases List.mem_cons.mp hp with rfl | hp
    · simp
    · obtain ⟨i, hi, rfl⟩ := List.mem_map.mp hp
      rw [List.mem_range'_1] at hi
      rw [List.mem_append, mem_pathNames]
      exact .inl ⟨i, by omega, by omega, .inr rfl⟩
  have hany : (("Z0" :: (List.range' 1 M).map zName).any fun p => (D.get? p).isNone) = false := by
    rw [List.any_eq_false]
    intro p hpp
    simp [hall p hpp]
  have hl := SCM.lookupAll_ok D ("Z0" :: (List.range' 1 M).map zName) (fun p => (D.get? p).getD (.d1 [])) (by
    intro p hpp; obtain ⟨a, ha⟩ := Option.ne_none_iff_exists'.mp (hall p hpp); simp [ha])
  obtain ⟨b, e1, e2⟩ := hS.p.beta0
  have hbeta : ∃ rest, S.p.beta = b :: rest := by
    cases hb : S.p.beta with
    | nil => rw [hb] at e1; simp at e1
    | cons x xs => rw [hb] at e1; simp at e1; exact ⟨xs, by rw [e1]⟩
  obtain ⟨rest, hbeta⟩ := hbeta
  refine ⟨_, w1, v1, ?_⟩
  unfold SCM.generate
  rw [hvars, SCM.sampleLoop_append _ _ _ _ _ _ _ _ h1, SCM.sampleLoop, hpy]
  simp only [hany, hl, List.map_cons, hz0, Option.getD_some]
  have hc : (paperScm M (cpds51 r S M)).cpds.get? "Y" = some (yCpd51 r S) := c2
  rw [hc]
  have hy : ∀ ps w, yCpd51 r S 0 (.d1 [] :: ps) w = (.error .valueError, w) := by
    intro ps w
    have hd : dotArr (α := ℝ) (.d1 []) (.vec b) = .error .valueError := by
      simp [dotArr]
      omega
    unfold yCpd51 normalCpd
    simp only [hbeta, List.map_cons, Py.bind_apply, Py.lift_apply, nUnits, term, item, List.getElem?_cons_zero, bind, Except.bind, hd]
  simp [hy]

/-! ## An instance -/

/-- Generators that always return the same numbers. -/
noncomputable def demoGens : Gens Unit Unit where
  gauss _ := (1, ())
  unif _ _ _ := (1 / 2, ())
  globalUnif _ _ _ := (1 / 2, ())
  randint _ _ := (0, ())

/-- Noise that always returns the same numbers. -/
noncomputable def demoNoise : Noise Unit ℝ where
  gauss _ := (1, ())
  unif _ := (1 / 4, ())
  mvn mean _ _ := (mean, ())
  sqrt x := x
  sig _ := 1 / 2

theorem demoNoise_good : GoodNoise demoNoise :=
  ⟨fun a => by norm_num [demoNoise], fun w => by norm_num [demoNoise], fun _ _ _ => rfl⟩

/-- When the local generator always returns the same numbers, the setup ends for all dimensions. -/
theorem const_setup (g : Gens Unit W) (s0 : Unit × W) (strength : Py (Unit × W) ℝ) (hst : ∀ s, ∃ x s', strength s = (.ok x, s')) (zDim vDim : List Nat) (M : Nat) (hM : 1 ≤ M)
    (hz : M < zDim.length) (hv : M < vDim.length) (fuel : Nat) : ∃ S s', setup g strength zDim vDim M fuel s0 = some (.ok S, s') := by
  rcases setup_good g (fun _ => True) strength (fun s => by obtain ⟨x, s', h⟩ := hst s; exact ⟨x, s', h, trivial⟩) zDim vDim M hM hz hv fuel s0 with h | ⟨S, s', h, -⟩
  · exfalso
    obtain ⟨p, s1, e, hp⟩ := params_ok g (fun _ => True) strength (fun s => by obtain ⟨x, s', h⟩ := hst s; exact ⟨x, s', h, trivial⟩) zDim vDim M hM hz hv s0
    unfold setup at h
    rw [e] at h
    simp only [setupZ0, at'_eq zDim 0 0 (by omega)] at h
    split at h
    · rename_i hsel
      rw [select_eq] at hsel
      · rw [untilBig_stop] at hsel
        · cases hsel
        · have : ∀ sup b u, tauAt (stdNormals g) sup b u 9 = 0 := by
            intro sup b u
            have hp : (pairAt (stdNormals g) u 9).1 = (pairAt (stdNormals g) u 9).2 := rfl
            unfold tauAt gap
            rw [hp, sub_self]
          simp [this]
      · exact fun n w => drawN_length _ _ _
      · obtain ⟨m0, hm, hm'⟩ := hp.mu0
        obtain ⟨b0, hb, hb'⟩ := hp.beta0
        refine ⟨?_, ?_, by simp [hb, hb']⟩
        · simp [(drawRows_length _ _ _ _).1, supportSize]
        · intro row hrow
          simp only [List.mem_map] at hrow
          obtain ⟨row, hr, rfl⟩ := hrow
          rw [show p.muZ.getD 0 [] = m0 by simp [hm], List.length_zipWith, hm', (drawRows_length _ _ _ _).2 row hr, min_self]
    · cases h
    · cases h
  · exact ⟨S, s', h⟩

theorem demo_setup (strength : Py (Unit × Unit) ℝ) (hst : ∀ s, ∃ x s', strength s = (.ok x, s')) (zDim vDim : List Nat) (M : Nat) (hM : 1 ≤ M)
    (hz : M < zDim.length) (hv : M < vDim.length) (fuel : Nat) : ∃ S s', setup demoGens strength zDim vDim M fuel ((), ()) = some (.ok S, s') :=
  const_setup demoGens ((), ()) strength hst zDim vDim M hM hz hv fuel

/-- Both examples with two paths and blocks of several dimensions meet the hypotheses. -/
example : ∃ S s', setup demoGens (strength51 demoGens) [2, 1, 2] [0, 3, 1] 2 0 ((), ()) = some (.ok S, s') ∧
    ∃ scm, Paper.scm 2 (cpds51 demoNoise S 2) = .ok scm ∧ ∀ w, ∃ smp w', scm.generate 5 w = (.ok smp, w') := by
  obtain ⟨S, s', h⟩ := demo_setup (strength51 demoGens) (fun s => ⟨_, _, rfl⟩) [2, 1, 2] [0, 3, 1] 2 (by simp) (by simp) (by simp) 0
  obtain ⟨scm, h1, h2⟩ := C73_generates demoNoise demoNoise_good demoGens (strength51 demoGens) (fun s => ⟨_, _, rfl⟩) [2, 1, 2] [0, 3, 1] 2
    (by simp) (by simp) (by simp) 0 ((), ()) s' S h 5 (by simp)
  refine ⟨S, s', h, scm, h1, fun w => ?_⟩
  obtain ⟨smp, w', h3, -⟩ := h2 w
  exact ⟨smp, w', h3⟩

example : ∃ S s' scm w', setup demoGens (strength51 demoGens) [2, 1, 2] [0, 3, 1] 2 0 ((), ()) = some (.ok S, s') ∧
    Paper.scm 2 (cpds51 demoNoise S 2) = .ok scm ∧ scm.generate 0 () = (.error .valueError, w') := by
  obtain ⟨S, s', h⟩ := demo_setup (strength51 demoGens) (fun s => ⟨_, _, rfl⟩) [2, 1, 2] [0, 3, 1] 2 (by simp) (by simp) (by simp) 0
  obtain ⟨scm, w', h1, h2⟩ := C73_empty_violated demoNoise demoNoise_good demoGens (strength51 demoGens) (fun s => ⟨_, _, rfl⟩) [2, 1, 2] [0, 3, 1] 2
    (by simp) (by simp) (by simp) (by simp) 0 ((), ()) s' S h ()
  exact ⟨S, s', scm, w', h, h1, h2⟩

end Section5
end Verif
