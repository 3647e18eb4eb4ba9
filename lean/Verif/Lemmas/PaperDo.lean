import Verif.Lemmas.Section51
import Verif.Props.SCM
import Mathlib.MeasureTheory.Integral.Bochner.Set
import Mathlib.MeasureTheory.Measure.Lebesgue.Basic

/-!
# The examples of the paper under an intervention on the treatment
-/

set_option linter.unusedSectionVars false
set_option linter.unusedSimpArgs false

namespace Verif
namespace Section5
open Cpds Paper
variable {R W : Type}

/-! ## The mean of the score -/

theorem take_succ_sum (p : List ℝ) (k : Nat) (hk : k < p.length) : (p.take (k + 1)).sum = (p.take k).sum + p.getD k 0 := by
  rw [List.take_succ_eq_append_getElem hk]
  simp [hk]

theorem take_sum_mono (p : List ℝ) (h : ∀ t ∈ p, 0 ≤ t) (k : Nat) : 0 ≤ (p.take k).sum ∧ (p.take k).sum ≤ p.sum := by
  constructor
  · exact List.sum_nonneg fun t ht => h t (List.mem_of_mem_take ht)
  · conv_rhs => rw [← List.take_append_drop k p, List.sum_append]
    have : 0 ≤ (p.drop k).sum := List.sum_nonneg fun t ht => h t (List.mem_of_mem_drop ht)
    linarith

theorem inCell_unique (p : List ℝ) (h : ∀ t ∈ p, 0 ≤ t) (u : ℝ) {k l : Nat} (hk : InCell p u k) (hl : InCell p u l) : k = l := by
  have mono : ∀ a b, a ≤ b → (p.take a).sum ≤ (p.take b).sum := by
    intro a b hab
    have := (take_sum_mono (p.take b) (fun t ht => h t (List.mem_of_mem_take ht)) a).2
    rwa [List.take_take, min_eq_left hab] at this
  by_contra hne
  rcases Nat.lt_or_gt_of_ne hne with hlt | hlt
  · have := mono (k + 1) l hlt
    linarith [hk.2.2, hl.2.1]
  · have := mono (l + 1) k hlt
    linarith [hl.2.2, hk.2.1]

theorem cellScore_eq (F : List ℝ → ℝ) (support : List (List ℝ)) (p : List ℝ) (h : ∀ t ∈ p, 0 ≤ t) (u : ℝ) {k : Nat} (hk : InCell p u k) :
    cellScore F support p u = F (support.getD k []) := by
  classical
  unfold cellScore
  rw [Finset.sum_eq_single k]
  · rw [if_pos hk]
  · intro l _ hne
    rw [if_neg fun hl => hne (inCell_unique p h u hl hk)]
  · intro hn
    exact absurd (Finset.mem_range.mpr hk.1) hn

open MeasureTheory in
theorem integral_cellScore (F : List ℝ → ℝ) (support : List (List ℝ)) (p : List ℝ) (h : IsPmf p) :
    IntegrableOn (cellScore F support p) (Set.Ico 0 1) ∧ ∫ u in Set.Ico (0 : ℝ) 1, cellScore F support p u = meanOf F support p := by
  classical
  have key : ∀ k ∈ Finset.range p.length, ∀ c : ℝ, (fun u => if InCell p u k then c else 0) = (Set.Ico (p.take k).sum (p.take (k + 1)).sum).indicator fun _ => c := by
    intro k hk c
    funext u
    rw [Set.indicator_apply]
    congr 1
    simp [InCell, Finset.mem_range.mp hk]
  have hint : ∀ k ∈ Finset.range p.length, ∀ c : ℝ, IntegrableOn (fun u => if InCell p u k then c else 0) (Set.Ico 0 1) := by
    intro k hk c
    rw [key k hk]
    exact (integrableOn_const (by simp) (by simp)).indicator measurableSet_Ico
  refine ⟨integrable_finsetSum _ fun k hk => hint k hk _, ?_⟩
  unfold cellScore meanOf
  rw [integral_finsetSum _ fun k hk => hint k hk _]
  refine Finset.sum_congr rfl fun k hk => ?_
  have hk' := Finset.mem_range.mp hk
  have h1 := take_sum_mono p h.1 k
  have h2 := take_sum_mono p h.1 (k + 1)
  have h3 := take_succ_sum p k hk'
  have h4 : 0 ≤ p.getD k 0 := by rw [List.getD_eq_getElem _ _ hk']; exact h.1 _ (List.getElem_mem _)
  rw [h.2] at h1 h2
  rw [key k hk, setIntegral_indicator measurableSet_Ico, Set.inter_eq_right.mpr (Set.Ico_subset_Ico h1.1 h2.2), setIntegral_const,
    Real.volume_real_Ico_of_le (by linarith), smul_eq_mul, h3]
  ring

theorem meanScore_meanOf (support : List (List ℝ)) (beta p : List ℝ) (h : p.length = support.length) (hs : ∀ v ∈ support, v.length = beta.length) :
    meanScore support beta p = meanOf (fun z => inner z beta) support p := by
  unfold meanScore meanOf
  rw [← sum_range_list]
  congr 1
  apply List.ext_getElem
  · simp [h]
  · intro k h1 h2
    simp only [List.length_zipWith, List.length_map, List.length_range] at h1 h2
    have hk : k < support.length := by omega
    rw [List.getElem_zipWith, List.getElem_map, List.getElem_range, List.getD_eq_getElem _ _ h2, List.getD_eq_getElem _ _ hk]
    congr 1
    rw [zipWith_row _ _ _ (hs _ (List.getElem_mem hk)) rfl, sum_range_list]
    unfold inner
    rw [Finset.sum_range]

/-! ## The runs -/

/-- Up to the treatment, two runs from the same state agree. -/
theorem paths_agree {β : Type} (M n : Nat) (hM : 1 ≤ M) (cV cZ : Nat → CPD β W) (s s' : String → Arr β) (wAt wAt' : String → W)
    (h0 : wAt "V1" = wAt' "V1")
    (d2 : ∀ i, 1 ≤ i → i ≤ M → cV i n [] (wAt (vName i)) = (.ok (s (vName i)), wAt (zName i)))
    (d3 : ∀ i, 1 ≤ i → i < M → cZ i n [s (vName i)] (wAt (zName i)) = (.ok (s (zName i)), wAt (vName (i + 1))))
    (d4 : cZ M n [s (vName M)] (wAt (zName M)) = (.ok (s (zName M)), wAt "X"))
    (d2' : ∀ i, 1 ≤ i → i ≤ M → cV i n [] (wAt' (vName i)) = (.ok (s' (vName i)), wAt' (zName i)))
    (d3' : ∀ i, 1 ≤ i → i < M → cZ i n [s' (vName i)] (wAt' (zName i)) = (.ok (s' (zName i)), wAt' (vName (i + 1))))
    (d4' : cZ M n [s' (vName M)] (wAt' (zName M)) = (.ok (s' (zName M)), wAt' "X")) :
    (∀ i, 1 ≤ i → i ≤ M → s (vName i) = s' (vName i) ∧ s (zName i) = s' (zName i)) ∧ wAt "X" = wAt' "X" := by
  have hv1 : vName 1 = "V1" := by decide +kernel
  have start : ∀ i, 1 ≤ i → i ≤ M → wAt (vName i) = wAt' (vName i) → s (vName i) = s' (vName i) ∧ wAt (zName i) = wAt' (zName i) := by
    intro i h1 h2 h
    have e := d2 i h1 h2
    rw [h, d2' i h1 h2] at e
    simp only [Prod.mk.injEq, Except.ok.injEq] at e
    exact ⟨e.1.symm, e.2.symm⟩
  have all : ∀ i, i < M → wAt (vName (i + 1)) = wAt' (vName (i + 1)) := by
    intro i
    induction i with
    | zero => intro _; rw [hv1]; exact h0
    | succ i ih =>
      intro hi
      obtain ⟨a, b⟩ := start (i + 1) (by omega) (by omega) (ih (by omega))
      have e := d3 (i + 1) (by omega) hi
      rw [a, b, d3' (i + 1) (by omega) hi] at e
      simp only [Prod.mk.injEq, Except.ok.injEq] at e
      exact e.2.symm
  have fin : ∀ i, 1 ≤ i → i ≤ M → s (vName i) = s' (vName i) ∧ wAt (zName i) = wAt' (zName i) := by
    intro i h1 h2
    refine start i h1 h2 ?_
    have := all (i - 1) (by omega)
    rwa [show i - 1 + 1 = i by omega] at this
  obtain ⟨a, b⟩ := fin M hM le_rfl
  have e := d4
  rw [a, b, d4'] at e
  simp only [Prod.mk.injEq, Except.ok.injEq] at e
  refine ⟨fun i h1 h2 => ⟨(fin i h1 h2).1, ?_⟩, e.2.symm⟩
  rcases Nat.lt_or_ge i M with h | h
  · obtain ⟨a, b⟩ := fin i h1 h2
    have e := d3 i h1 h
    rw [a, b, d3' i h1 h] at e
    simp only [Prod.mk.injEq, Except.ok.injEq] at e
    exact e.1.symm
  · obtain rfl : i = M := by omega
    exact e.1.symm

/-- A run of the SCM with the treatment set to `x`. -/
theorem do_run (r : Noise W ℝ) (hr : GoodNoise r) {P : ℝ → Prop} {zDim vDim : List Nat} {M : Nat} (hM : 1 ≤ M) {S : Setup} (hS : GoodSetup P zDim vDim M S)
    (n : Nat) (hn : 1 ≤ n) (D : Dict String (CPD ℝ W)) (cZ : Nat → CPD ℝ W) (cY : CPD ℝ W) (hZ0 : D.get? "Z0" = some (z0Cpd r S))
    (hV : ∀ i, 1 ≤ i → i ≤ M → D.get? (vName i) = some (vCpd r (S.p.muV.getD i []) (S.p.covV.getD i [])) ∧ D.get? (zName i) = some (cZ i))
    (hY : D.get? "Y" = some cY)
    (hcZ : ∀ i, 1 ≤ i → i ≤ M → ∀ a, IsMat n (vDim.getD i 0) a → ∀ w, ∃ b w', cZ i n [a] w = (.ok b, w') ∧ IsMat n (zDim.getD i 0) b)
    (F : List ℝ → ℝ) (G : (Nat → Arr ℝ) → W → Nat → ℝ) (wy : W → W)
    (hcY : ∀ a : Nat → Arr ℝ, (∀ i, i ≤ M → IsMat n (zDim.getD i 0) (a i)) → ∀ w, cY n ((List.range (M + 1)).map a) w =
      (.ok (.d1 ((List.range n).map fun j => F (rowAt (a 0) j) + G (fun i => a (i + 1)) w j)), wy w))
    (x : ℝ) (hx : x = 0 ∨ x = 1) (w : W) :
    ∃ (scm : SCM String ℝ W) (smp : Sample ℝ) (s : String → Arr ℝ) (wAt : String → W) (w' : W), Paper.scm M (D.set "X" (SCM.deterministicCpd x)) = .ok scm ∧ scm.generate n w = (.ok smp, w') ∧
      wAt "V1" = w ∧
      (∀ i, 1 ≤ i → i ≤ M → vCpd r (S.p.muV.getD i []) (S.p.covV.getD i []) n [] (wAt (vName i)) = (.ok (s (vName i)), wAt (zName i))) ∧
      (∀ i, 1 ≤ i → i < M → cZ i n [s (vName i)] (wAt (zName i)) = (.ok (s (zName i)), wAt (vName (i + 1)))) ∧
      cZ M n [s (vName M)] (wAt (zName M)) = (.ok (s (zName M)), wAt "X") ∧
      smp.exp = .d1 (List.replicate n x) ∧
      (∀ j, j < n → ∃ k, InCell (if x = 1 then S.sel.p1 else S.sel.p0) (nthDraw r.unif (wAt "X") j) k ∧
        smp.cov.row? j = some (S.z0.support.getD k [] ++ (List.range M).flatMap fun i => rowAt (s (vName (i + 1))) j ++ rowAt (s (zName (i + 1))) j)) ∧
      smp.rsp = .d1 ((List.range n).map fun j => cellScore F S.z0.support (if x = 1 then S.sel.p1 else S.sel.p0) (nthDraw r.unif (wAt "X") j) +
        G (fun i => s (zName (i + 1))) (afterDraws r.unif (wAt "X") n) j) ∧
      w' = wy (afterDraws r.unif (wAt "X") n) := by
  have e1 : (D.set "X" (SCM.deterministicCpd x)).get? "X" = some (SCM.deterministicCpd x) := by rw [Dict.get?_set, if_pos rfl]
  have e2 : (D.set "X" (SCM.deterministicCpd x)).get? "Y" = some cY := by rw [Dict.get?_set, if_neg (by decide +kernel), hY]
  have e3 : (D.set "X" (SCM.deterministicCpd x)).get? "Z0" = some (z0Cpd r S) := by rw [Dict.get?_set, if_neg (by decide +kernel), hZ0]
  have e4 : ∀ i, 1 ≤ i → i ≤ M → (D.set "X" (SCM.deterministicCpd x)).get? (vName i) = some (vCpd r (S.p.muV.getD i []) (S.p.covV.getD i [])) ∧
      (D.set "X" (SCM.deterministicCpd x)).get? (zName i) = some (cZ i) := by
    intro i h1 h2
    rw [Dict.get?_set, Dict.get?_set, if_neg (name_facts i).1.symm, if_neg (name_facts i).2.2.2.1.symm]
    exact hV i h1 h2
  generalize D.set "X" (SCM.deterministicCpd x) = D' at e1 e2 e3 e4 ⊢
  obtain ⟨v1, v2, v3⟩ := paper_valid M D' (by simp [e1]) (by simp [e2]) (by simp [e3]) fun i h1 h2 => ⟨by simp [(e4 i h1 h2).1], by simp [(e4 i h1 h2).2]⟩
  have inv := graphInv M
  have hp : (graph M).parents = ((List.range' 1 M).foldl graphStep graphInit).parents := rfl
  have hrep : List.replicate n x = (List.range n).map fun _ => x := by apply List.ext_getElem <;> simp
  have hty : ∀ v ∈ (paperScm M D').varNames, (paperScm M D').TypedAt n (Shape zDim vDim M n (IsMat n (zDim.getD 0 0))) v := by
    intro v hv ps cpd hps hcpd s w hsh
    have hps : (graph M).parents.get? v = some ps := hps
    have hcpd : D'.get? v = some cpd := hcpd
    rw [hp] at hps
    rcases (mem_graph_vars M v).mp hv with ⟨i, h1, h2, rfl | rfl⟩ | rfl | rfl | rfl
    · rw [(e4 i h1 h2).1] at hcpd; cases hcpd
      rw [vCpd_eq]
      refine ⟨_, _, rfl, shape_v ?_⟩
      rw [hS.muV h1 h2]
      exact isMat_map _ _ _ fun j => by rw [← hS.muV h1 h2]; exact hr.mvn _ _ _
    · rw [(e4 i h1 h2).2] at hcpd; cases hcpd
      rw [inv.z i h1 h2] at hps; cases hps
      obtain ⟨b, w', h, hb⟩ := hcZ i h1 h2 (s (vName i)) ((hsh _ (by simp)).v i h1 h2 rfl) w
      exact ⟨b, w', h, shape_z (by omega) hb⟩
    · rw [e1] at hcpd; cases hcpd
      refine ⟨_, _, rfl, ?_⟩
      rw [hrep]
      exact shape_x _ fun j => hx
    · rw [e3] at hcpd; cases hcpd
      rw [inv.z0] at hps; cases hps
      obtain ⟨f, hf, hx⟩ := (hsh "X" (by simp)).x rfl
      obtain ⟨a, h1, h2, -⟩ := z0Cpd_eq r hr.unif S hS.wf hS.p0 hS.len0 hS.p1 hS.len1 f hf n n hn w
      refine ⟨a, afterDraws r.unif w n, ?_, shape_z0 (by rw [← hS.d]; exact h2)⟩
      rw [List.map_cons, List.map_nil, hx]
      exact h1
    · rw [e2] at hcpd; cases hcpd
      rw [inv.y] at hps; cases hps
      have := hcY (fun i => s (zName i)) (fun i hi => by
        rcases Nat.eq_zero_or_pos i with rfl | hi'
        · rw [← z0_eq]; exact (hsh "Z0" (by simp)).z0 rfl
        · exact (hsh (zName i) (List.mem_cons_of_mem _ (List.mem_map.mpr ⟨i, by rw [List.mem_range'_1]; omega, rfl⟩))).z i hi' (by omega) rfl) w
      have e : ("Z0" :: (List.range' 1 M).map zName).map s = (List.range (M + 1)).map fun i => s (zName i) := by
        rw [List.range_succ_eq_map, z0_eq]
        simp [List.range'_eq_map_range, Function.comp_def, Nat.add_comm]
      rw [e, this]
      exact ⟨_, _, rfl, shape_y⟩
  have hcovs : (paperScm M D').covVariables = "Z0" :: pathNames M := (graph_inv M).1
  obtain ⟨smp, w', hg⟩ := SCM.generate_typed (paperScm M D') n _ hty v2 (by rw [hcovs]; simp) (by
    intro v hv a ha
    rw [hcovs, List.mem_cons, mem_pathNames] at hv
    rcases hv with rfl | ⟨i, h1, h2, rfl | rfl⟩
    · exact (ha.z0 rfl).len
    · exact (ha.v i h1 h2 rfl).len
    · exact (ha.z i h1 h2 rfl).len) v3 w
  obtain ⟨s, ws, hrun, hw, hw', h3, h4, h5, h6, h7⟩ := SCM.C15_generate_run (paperScm M D') (graph_nodup M) v2.cov v2.treatment v2.response n w w' smp hg
  have hshape := hrun.shape _ hty
  have hmem : ∀ v, (∃ i, 1 ≤ i ∧ i ≤ M ∧ (v = vName i ∨ v = zName i)) ∨ v = "X" ∨ v = "Z0" ∨ v = "Y" →
      Shape zDim vDim M n (IsMat n (zDim.getD 0 0)) v (s v) := fun v h => hshape v ((mem_graph_vars M v).mpr h)
  have sz : ∀ i, 1 ≤ i → i ≤ M → IsMat n (zDim.getD i 0) (s (zName i)) := fun i a b => (hmem _ (.inl ⟨i, a, b, .inr rfl⟩)).z i a b rfl
  have sz0 : IsMat n (zDim.getD 0 0) (s "Z0") := (hmem "Z0" (by simp)).z0 rfl
  obtain ⟨wAt, d1, d2, d3, d4, d5, d6, d7⟩ := paper_run M n hM D' _ _ _ _ _ e1 e2 e3 e4 s ws hrun w w' hw hw'
  simp only [SCM.deterministicCpd, Prod.mk.injEq, Except.ok.injEq] at d5
  obtain ⟨d5, d5'⟩ := d5
  obtain ⟨a0, z1, z2, z3⟩ := z0Cpd_eq r hr.unif S hS.wf hS.p0 hS.len0 hS.p1 hS.len1 (fun _ => x) (fun _ => hx) n n hn (wAt "Z0")
  rw [← hrep, d5, d6] at z1
  simp only [Prod.mk.injEq, Except.ok.injEq] at z1
  obtain ⟨rfl, z4⟩ := z1
  rw [hcY (fun i => s (zName i)) (fun i hi => by
    rcases Nat.eq_zero_or_pos i with rfl | hi'
    · rw [← z0_eq]; exact sz0
    · exact sz i hi' hi) (wAt "Y")] at d7
  simp only [Prod.mk.injEq, Except.ok.injEq] at d7
  obtain ⟨d7, d8⟩ := d7
  have hpos : ∀ t ∈ (if x = 1 then S.sel.p1 else S.sel.p0), 0 ≤ t := by
    split
    · exact hS.p1.1
    · exact hS.p0.1
  have hn' : smp.cov.len = n := by
    rw [← h6 "Z0" (by rw [hcovs]; simp)]
    exact sz0.len
  refine ⟨_, smp, s, wAt, w', v1, hg, d1, d2, d3, d4, ?_, ?_, ?_, ?_⟩
  · rw [h3, d5]; rfl
  · intro j hj
    obtain ⟨k, k1, k2⟩ := z3 j hj
    refine ⟨k, by rw [d5']; exact k1, ?_⟩
    rw [h7 j (by omega), hcovs, ← k2]
    congr 1
    rw [List.map_cons, List.flatten_cons]
    congr 1
    rw [pathNames, List.range'_eq_map_range, ← List.flatMap_def, List.flatMap_assoc, List.flatMap_map]
    congr 1
    funext i
    simp [rowAt, vName, zName, Nat.add_comm]
  · have : s (paperScm M D').response = s "Y" := rfl
    rw [h4, this, ← d7]
    congr 1
    apply List.map_congr_left
    intro j hj
    obtain ⟨k, k1, k2⟩ := z3 j (List.mem_range.mp hj)
    rw [← z0_eq, k2, d5', cellScore_eq F _ _ hpos _ k1, ← z4]
  · rw [← d8, z4, d5']

/-- The two interventions from the same state: everything but `X`, `Z0` and `Y` is the same, and the responses differ by the scores of `Z0`. -/
theorem do_pair (r : Noise W ℝ) (hr : GoodNoise r) {P : ℝ → Prop} {zDim vDim : List Nat} {M : Nat} (hM : 1 ≤ M) {S : Setup} (hS : GoodSetup P zDim vDim M S)
    (n : Nat) (hn : 1 ≤ n) (D : Dict String (CPD ℝ W)) (cZ : Nat → CPD ℝ W) (cY : CPD ℝ W) (hZ0 : D.get? "Z0" = some (z0Cpd r S))
    (hV : ∀ i, 1 ≤ i → i ≤ M → D.get? (vName i) = some (vCpd r (S.p.muV.getD i []) (S.p.covV.getD i [])) ∧ D.get? (zName i) = some (cZ i))
    (hY : D.get? "Y" = some cY)
    (hcZ : ∀ i, 1 ≤ i → i ≤ M → ∀ a, IsMat n (vDim.getD i 0) a → ∀ w, ∃ b w', cZ i n [a] w = (.ok b, w') ∧ IsMat n (zDim.getD i 0) b)
    (F : List ℝ → ℝ) (G : (Nat → Arr ℝ) → W → Nat → ℝ) (wy : W → W)
    (hcY : ∀ a : Nat → Arr ℝ, (∀ i, i ≤ M → IsMat n (zDim.getD i 0) (a i)) → ∀ w, cY n ((List.range (M + 1)).map a) w =
      (.ok (.d1 ((List.range n).map fun j => F (rowAt (a 0) j) + G (fun i => a (i + 1)) w j)), wy w))
    (hG : ∀ a b w j, (∀ i, i < M → a i = b i) → G a w j = G b w j) (w : W) :
    ∃ (u : W) (c : Nat → ℝ) (rest : Nat → List ℝ) (w' : W), ∀ x : ℝ, x = 0 ∨ x = 1 → ∃ (scm : SCM String ℝ W) (smp : Sample ℝ),
      Paper.scm M (D.set "X" (SCM.deterministicCpd x)) = .ok scm ∧ scm.generate n w = (.ok smp, w') ∧
      smp.exp = .d1 (List.replicate n x) ∧
      (∀ j, j < n → ∃ k, InCell (if x = 1 then S.sel.p1 else S.sel.p0) (nthDraw r.unif u j) k ∧ smp.cov.row? j = some (S.z0.support.getD k [] ++ rest j)) ∧
      smp.rsp = .d1 ((List.range n).map fun j => cellScore F S.z0.support (if x = 1 then S.sel.p1 else S.sel.p0) (nthDraw r.unif u j) + c j) := by
  obtain ⟨-, -, s0, wAt0, w0, -, -, b1, b2, b3, b4, -, -, -, -⟩ := do_run r hr hM hS n hn D cZ cY hZ0 hV hY hcZ F G wy hcY 0 (.inl rfl) w
  refine ⟨wAt0 "X", fun j => G (fun i => s0 (zName (i + 1))) (afterDraws r.unif (wAt0 "X") n) j,
    fun j => (List.range M).flatMap fun i => rowAt (s0 (vName (i + 1))) j ++ rowAt (s0 (zName (i + 1))) j, wy (afterDraws r.unif (wAt0 "X") n), fun x hx => ?_⟩
  obtain ⟨scm, smp, s, wAt, w', a1, a2, a3, a4, a5, a6, a7, a8, a9, a10⟩ := do_run r hr hM hS n hn D cZ cY hZ0 hV hY hcZ F G wy hcY x hx w
  obtain ⟨q1, q2⟩ := paths_agree M n hM (fun i => vCpd r (S.p.muV.getD i []) (S.p.covV.getD i [])) cZ s s0 wAt wAt0 (a3.trans b1.symm) a4 a5 a6 b2 b3 b4
  subst a10
  rw [q2] at a2 a8 a9
  refine ⟨scm, smp, a1, a2, a7, fun j hj => ?_, ?_⟩
  · obtain ⟨k, k1, k2⟩ := a8 j hj
    refine ⟨k, k1, ?_⟩
    rw [k2]
    congr 2
    refine List.flatMap_congr fun i hi => ?_
    have := q1 (i + 1) (by omega) (by have := List.mem_range.mp hi; omega)
    rw [this.1, this.2]
  · rw [a9]
    congr 1
    apply List.map_congr_left
    intro j _
    rw [hG (fun i => s (zName (i + 1))) (fun i => s0 (zName (i + 1)))]
    intro i hi
    exact (q1 (i + 1) (by omega) (by omega)).2

end Section5
end Verif
