import Verif.Lemmas.Section5
import Verif.Lemmas.PaperRun

/-!
# Lemmas about the CPDs of Section 5.1
-/

set_option linter.unusedSectionVars false
set_option linter.unusedSimpArgs false

namespace Verif
namespace Section5
open Cpds Paper
variable {R W : Type}

theorem inner_range (z b : List ℝ) : inner z b = ∑ i ∈ Finset.range b.length, z.getD i 0 * b.getD i 0 := by
  unfold inner; rw [Finset.sum_range]

theorem vectorTerm_inner (a : Arr ℝ) (c : Nat) (m : List (List ℝ)) (j l : Nat) :
    vectorTerm j l (a, .mat c m) = inner (rowAt a j) (m.map fun row => row.getD l 0) := by
  rw [inner_range, List.length_map, Finset.sum_range]
  unfold vectorTerm
  refine Finset.sum_congr rfl fun i _ => ?_
  simp

theorem rowAt_d2 (d n : Nat) (f : Nat → List ℝ) (j : Nat) (hj : j < n) : rowAt (.d2 d ((List.range n).map f)) j = f j := by
  simp [rowAt, Arr.row?, hj]

theorem rowAt_d1 (n : Nat) (f : Nat → ℝ) (j : Nat) (hj : j < n) : rowAt (.d1 ((List.range n).map f)) j = [f j] := by
  simp [rowAt, Arr.row?, hj]

theorem IsMat.len {n d : Nat} {a : Arr ℝ} (h : IsMat n d a) : a.len = n := by
  obtain ⟨rows, rfl, h, -⟩ := h; exact h

theorem IsMat.nFeatures {n d : Nat} {a : Arr ℝ} (h : IsMat n d a) : a.nFeatures = d := by
  obtain ⟨rows, rfl, -⟩ := h; rfl

theorem IsMat.rowAt {n d : Nat} {a : Arr ℝ} (h : IsMat n d a) {j : Nat} (hj : j < n) : (rowAt a j).length = d := by
  obtain ⟨rows, rfl, rfl, h⟩ := h
  simpa [Cpds.rowAt, Arr.row?, hj] using h _ (List.getElem_mem hj)

theorem generate_d2 {scm : SCM String ℝ W} {n : Nat} {w w' : W} {smp : Sample ℝ} (h : scm.generate n w = (.ok smp, w')) :
    ∃ k rows, smp.cov = .d2 k rows := by
  unfold SCM.generate at h
  split at h
  · simp at h
  · simp only [bind, Except.bind, pure, Except.pure, Prod.mk.injEq] at h
    obtain ⟨h, -⟩ := h
    split at h
    · simp at h
    · rename_i covs _
      split at h
      · simp at h
      · rename_i x hx
        split at h
        · simp at h
        · split at h
          · simp at h
          · split at h
            · cases h
              cases covs with
              | nil => simp [SCM.columnStack] at hx
              | cons a as =>
                simp only [SCM.columnStack] at hx
                split at hx
                · simp at hx
                · exact ⟨_, _, (Except.ok.inj hx).symm⟩
            · cases h

/-- The covariates are a matrix, if all variables are. -/
theorem isMat_cov {zDim vDim : List Nat} {M n k : Nat} {rows : List (List ℝ)} {a : Arr ℝ} (e : a = .d2 k rows) (s : String → Arr ℝ) (hn : a.len = n)
    (hf : a.nFeatures = (("Z0" :: pathNames M).map fun v => (s v).nFeatures).sum)
    (hrow : ∀ j, j < a.len → a.row? j = some ((("Z0" :: pathNames M).map fun v => ((s v).row? j).getD []).flatten))
    (h0 : IsMat n (zDim.getD 0 0) (s "Z0")) (hv : ∀ i, 1 ≤ i → i ≤ M → IsMat n (vDim.getD i 0) (s (vName i)))
    (hz : ∀ i, 1 ≤ i → i ≤ M → IsMat n (zDim.getD i 0) (s (zName i))) : IsMat n (totalDim zDim vDim M) a := by
  subst e
  have hmat : ∀ v ∈ "Z0" :: pathNames M, ∃ d, IsMat n d (s v) := by
    intro v hv'
    rw [List.mem_cons, mem_pathNames] at hv'
    rcases hv' with rfl | ⟨i, h1, h2, rfl | rfl⟩
    exacts [⟨_, h0⟩, ⟨_, hv i h1 h2⟩, ⟨_, hz i h1 h2⟩]
  have htot : k = totalDim zDim vDim M := by
    rw [show k = (Arr.d2 k rows).nFeatures from rfl, hf, List.map_cons, List.sum_cons, h0.nFeatures]
    unfold totalDim
    congr 1
    rw [pathNames, List.range'_eq_map_range, List.flatMap_map, List.map_flatMap, List.flatMap_def, List.sum_flatten, List.map_map]
    congr 1
    apply List.map_congr_left
    intro i hi
    rw [List.mem_range] at hi
    have e1 := (hv (i + 1) (by omega) (by omega)).nFeatures
    have e2 := (hz (i + 1) (by omega) (by omega)).nFeatures
    rw [Nat.add_comm] at e1 e2
    simp only [Function.comp_apply, List.map_cons, List.map_nil, List.sum_cons, List.sum_nil, e1, e2, add_zero]
    rw [Nat.add_comm 1 i]
  refine ⟨rows, by rw [htot], hn, ?_⟩
  intro row hr
  obtain ⟨j, hj, rfl⟩ := List.mem_iff_getElem.1 hr
  have hj' : j < n := by rw [← hn]; exact hj
  have := hrow j hj
  simp only [Arr.row?, List.getElem?_eq_getElem hj, Option.some.injEq] at this
  rw [this, List.length_flatten, List.map_map, ← htot, show k = (Arr.d2 k rows).nFeatures from rfl, hf]
  congr 1
  apply List.map_congr_left
  intro v hv'
  obtain ⟨d, hd⟩ := hmat v hv'
  rw [hd.nFeatures]
  exact hd.rowAt hj'

theorem isMat_map (n d : Nat) (f : Nat → List ℝ) (h : ∀ j, (f j).length = d) : IsMat n d (.d2 d ((List.range n).map f)) := by
  refine ⟨_, rfl, by simp, ?_⟩
  intro row hrow
  obtain ⟨j, -, rfl⟩ := List.mem_map.mp hrow
  exact h j

theorem vCpd_eq (r : Noise W ℝ) (mean : List ℝ) (cov : List (List ℝ)) (n : Nat) (ps : List (Arr ℝ)) (w : W) :
    vCpd r mean cov n ps w =
      (.ok (.d2 mean.length ((List.range n).map (nthDraw (r.mvn mean cov) w))), afterDraws (r.mvn mean cov) w n) := by
  unfold vCpd
  rw [mvns_eq]

theorem zCpd51_eq (r : Noise W ℝ) (hm : ∀ mean cov v, (r.mvn mean cov v).1.length = mean.length) (n dv dz : Nat) (m : List (List ℝ))
    (hl : m.length = dv) (mean : List ℝ) (hk : mean.length = dz) (cov : List (List ℝ)) (n' : Nat) (a : Arr ℝ) (ha : IsMat n dv a) (w : W) :
    zCpd51 r (dz, m) mean cov n' [a] w = (.ok (.d2 dz ((List.range n).map fun j => (List.range dz).map fun l =>
      inner (rowAt a j) (m.map fun row => row.getD l 0) + (nthDraw (r.mvn mean cov) w j).getD l 0)), afterDraws (r.mvn mean cov) w n) := by
  obtain ⟨rows, rfl, h1, h2⟩ := ha
  have := C72_normal_vector r n dz [(.d2 dv rows, .mat dz m)] (by simp) (by
    intro p hp
    simp only [List.mem_singleton] at hp
    subst hp
    exact ⟨h1, h2, hl, rfl⟩) mean cov hk (hm mean cov) w
  simp only [List.map_cons, List.map_nil, vectorTerm_inner, List.sum_cons, List.sum_nil, add_zero] at this
  exact this

theorem scalarFit_mat {n d : Nat} {a : Arr ℝ} (ha : IsMat n d a) (b : List ℝ) (hb : b.length = d) : ScalarFit n (a, .vec b) := by
  obtain ⟨rows, rfl, h1, h2⟩ := ha
  exact ⟨h1, h2, hb⟩

theorem sum_range_list (m : Nat) (f : Nat → ℝ) : ((List.range m).map f).sum = ∑ i ∈ Finset.range m, f i := by
  rw [Finset.sum_range, ← List.sum_ofFn]
  congr 1
  apply List.ext_getElem <;> simp

theorem eq_range_map {γ : Type} (l : List γ) (d : γ) (m : Nat) (h : l.length = m) : l = (List.range m).map fun i => l.getD i d := by
  apply List.ext_getElem
  · simp [h]
  · intro i h1 h2; simp [h1]

theorem xCpd51_eq (r : Noise W ℝ) (hs : ∀ a, 0 ≤ r.sig a ∧ r.sig a ≤ 1) (S : Setup) (n M : Nat) (hM : 1 ≤ M) (hg : S.p.gamma.length = M)
    (d : Nat → Nat) (hd : ∀ i, i < M → (S.p.gamma.getD i []).length = d i) (a : Nat → Arr ℝ) (ha : ∀ i, i < M → IsMat n (d i) (a i)) (n' : Nat) (w : W) :
    xCpd51 r S n' ((List.range M).map a) w = (.ok (.d1 ((List.range n).map fun j =>
      if nthDraw r.unif w j < r.sig (∑ i ∈ Finset.range M, inner (rowAt (a i) j) (S.p.gamma.getD i [])) then 1 else 0)), afterDraws r.unif w n) := by
  have := C72_logistic r hs n ((List.range M).map fun i => (a i, .vec (S.p.gamma.getD i []))) (by
      simp only [ne_eq, List.map_eq_nil_iff, List.range_eq_nil]; omega) (by
    intro p hp
    obtain ⟨i, hi, rfl⟩ := List.mem_map.mp hp
    have hi := List.mem_range.mp hi
    exact scalarFit_mat (ha i hi) _ (hd i hi)) w
  unfold xCpd51
  simp only [List.map_map, Function.comp_def] at this
  have hg' : S.p.gamma.map (Coef.vec (α := ℝ)) = (List.range M).map fun i => .vec (S.p.gamma.getD i []) := by
    conv_lhs => rw [eq_range_map S.p.gamma [] M hg]
    rw [List.map_map]; rfl
  rw [hg', this]
  simp only [sum_range_list]
  rfl

theorem yCpd51_eq (r : Noise W ℝ) (S : Setup) (n M : Nat) (hb : S.p.beta.length = M + 2)
    (d : Nat → Nat) (hd : ∀ i, i ≤ M → (S.p.beta.getD i []).length = d i) (a : Nat → Arr ℝ) (ha : ∀ i, i ≤ M → IsMat n (d i) (a i)) (n' : Nat) (w : W) :
    yCpd51 r S n' ((List.range (M + 1)).map a) w = (.ok (.d1 ((List.range n).map fun j => inner (rowAt (a 0) j) (S.p.beta.getD 0 []) +
      ∑ i ∈ Finset.range M, inner (rowAt (a (i + 1)) j) (S.p.beta.getD (i + 1) []) + r.sqrt (1 / 10) * nthDraw r.gauss w j)),
      afterDraws r.gauss w n) := by
  have hne : ((List.range (M + 1)).map fun i => (a i, Coef.vec (S.p.beta.getD i []))) ≠ [] := by simp
  have hfit : ∀ p ∈ ((List.range (M + 1)).map fun i => (a i, Coef.vec (S.p.beta.getD i []))), ScalarFit n p := by
    intro p hp
    obtain ⟨i, hi, rfl⟩ := List.mem_map.mp hp
    have hi := List.mem_range.mp hi
    exact scalarFit_mat (ha i (by omega)) _ (hd i (by omega))
  have h1 := C72_normal_scalar r n _ hne hfit 0 (1 / 10) w
  have h2 := C72_extra_violated r n _ hne hfit [.vec (S.p.beta.getD (M + 1) [])] 0 (1 / 10) w
  rw [h1] at h2
  simp only [List.map_map, Function.comp_def] at h2
  unfold yCpd51
  have hb' : S.p.beta.map (Coef.vec (α := ℝ)) = ((List.range (M + 1)).map fun i => .vec (S.p.beta.getD i [])) ++ [.vec (S.p.beta.getD (M + 1) [])] := by
    conv_lhs => rw [eq_range_map S.p.beta [] (M + 2) hb]
    rw [List.map_map, show M + 2 = M + 1 + 1 by omega, List.range_succ, List.map_append]; rfl
  rw [hb', h2]
  simp only [sum_range_list, Finset.sum_range_succ', noiseAt, zero_add]
  congr 3
  refine List.map_congr_left fun j _ => ?_
  rw [add_comm (∑ i ∈ Finset.range M, _)]
  rfl

theorem z0Dist_eq (r : Noise W ℝ) (hu : ∀ w, 0 ≤ (r.unif w).1 ∧ (r.unif w).1 < 1) (support : List (List ℝ)) (h10 : support.length = 10)
    (p : List ℝ) (hp : IsPmf p) (hl : p.length = 10) (ps : List (List ℝ)) (w : W) :
    ∃ k, z0Dist r support p ps w = (.ok (support.getD k []), (r.unif w).2) ∧ InCell p (r.unif w).1 k := by
  obtain ⟨k, h1, h2⟩ := choice_eq r hu p hp hl w
  refine ⟨k, ?_, h2⟩
  unfold z0Dist
  rw [h1]
  simp only [at'_eq support k [] (by rw [h10, ← hl]; exact h2.1)]

theorem trunc_zero : trunc 0 = 0 := by simp [trunc]
theorem trunc_one : trunc 1 = 1 := by simp [trunc]

theorem z0Loop (r : Noise W ℝ) (hu : ∀ w, 0 ≤ (r.unif w).1 ∧ (r.unif w).1 < 1) (support : List (List ℝ)) (h10 : support.length = 10)
    (p0 p1 : List ℝ) (hp0 : IsPmf p0) (hl0 : p0.length = 10) (hp1 : IsPmf p1) (hl1 : p1.length = 10) (f : Nat → ℝ)
    (hf : ∀ j, f j = 0 ∨ f j = 1) (m i : Nat) (w : W) :
    ∃ rows, catLoop (fun d : List ℝ => trunc (d.getD 0 0)) [z0Dist r support p0, z0Dist r support p1] [] i
      ((List.range' i m).map fun j => [f j]) w = (.ok rows, afterDraws r.unif w m) ∧ rows.length = m ∧
      ∀ j, j < m → ∃ k, InCell (if f (i + j) = 1 then p1 else p0) (nthDraw r.unif w j) k ∧ rows.getD j [] = support.getD k [] := by
  induction m generalizing i w with
  | zero => exact ⟨[], rfl, rfl, fun j hj => by omega⟩
  | succ m ih =>
    obtain ⟨rows, e1, e2, e3⟩ := ih (i + 1) (r.unif w).2
    have key : ∃ k, InCell (if f i = 1 then p1 else p0) (r.unif w).1 k ∧ catLoop (fun d : List ℝ => trunc (d.getD 0 0))
        [z0Dist r support p0, z0Dist r support p1] [] i ((List.range' i (m + 1)).map fun j => [f j]) w =
          (.ok (support.getD k [] :: rows), afterDraws r.unif w (m + 1)) := by
      rw [List.range'_succ, List.map_cons, catLoop]
      simp only [List.mapM_nil, pure, Except.pure, List.length_cons, List.length_nil, List.getD_cons_zero]
      rcases hf i with h | h
      · obtain ⟨k, k1, k2⟩ := z0Dist_eq r hu support h10 p0 hp0 hl0 [] w
        refine ⟨k, by rw [h]; simpa using k2, ?_⟩
        rw [h, trunc_zero]
        simp only [ExpData.pyIndex]
        simp only [show (0 : Int) ≤ 0 ∧ (0 : Int) < ((0 + 1 + 1 : Nat) : Int) by decide, and_self, if_true, Int.toNat_zero,
          List.getElem?_cons_zero, k1, e1]
        rfl
      · obtain ⟨k, k1, k2⟩ := z0Dist_eq r hu support h10 p1 hp1 hl1 [] w
        refine ⟨k, by rw [h]; simpa using k2, ?_⟩
        rw [h, trunc_one]
        simp only [ExpData.pyIndex]
        simp only [show (0 : Int) ≤ 1 ∧ (1 : Int) < ((0 + 1 + 1 : Nat) : Int) by decide, and_self, if_true, Int.toNat_one,
          List.getElem?_cons_zero, List.getElem?_cons_succ, k1, e1]
        rfl
    obtain ⟨k, k1, k2⟩ := key
    refine ⟨_, k2, by simp [e2], ?_⟩
    intro j hj
    cases j with
    | zero => exact ⟨k, k1, rfl⟩
    | succ j =>
      obtain ⟨k', a, b⟩ := e3 j (by omega)
      refine ⟨k', ?_, b⟩
      rw [show i + (j + 1) = i + 1 + j by omega]
      exact a

theorem z0Cpd_eq (r : Noise W ℝ) (hu : ∀ w, 0 ≤ (r.unif w).1 ∧ (r.unif w).1 < 1) (S : Setup) (hwf : S.z0.WF)
    (hp0 : IsPmf S.sel.p0) (hl0 : S.sel.p0.length = 10) (hp1 : IsPmf S.sel.p1) (hl1 : S.sel.p1.length = 10) (f : Nat → ℝ)
    (hf : ∀ j, f j = 0 ∨ f j = 1) (n n' : Nat) (hn : 1 ≤ n) (w : W) :
    ∃ a, z0Cpd r S n' [.d1 ((List.range n).map f)] w = (.ok a, afterDraws r.unif w n) ∧ IsMat n S.z0.d a ∧
      ∀ j, j < n → ∃ k, InCell (if f j = 1 then S.sel.p1 else S.sel.p0) (nthDraw r.unif w j) k ∧ rowAt a j = S.z0.support.getD k [] := by
  obtain ⟨rows, e1, e2, e3⟩ := z0Loop r hu S.z0.support hwf.1 S.sel.p0 S.sel.p1 hp0 hl0 hp1 hl1 f hf n 0 w
  have hlen : ∀ row ∈ rows, row.length = S.z0.d := by
    intro row hrow
    obtain ⟨j, hj, rfl⟩ := List.mem_iff_getElem.mp hrow
    obtain ⟨k, k1, k2⟩ := e3 j (by omega)
    have hk : k < S.z0.support.length := by
      rw [hwf.1]
      have := k1.1
      split at this <;> omega
    have : rows[j] = S.z0.support[k] := by simpa [hj, hk] using k2
    rw [this]
    exact hwf.2.1 _ (List.getElem_mem hk)
  refine ⟨.d2 S.z0.d rows, ?_, ⟨rows, rfl, e2, hlen⟩, ?_⟩
  · unfold z0Cpd categoricalConditioning
    simp only [List.map_cons, List.map_nil, SCM.asRows, List.map_map, List.length_cons, List.length_nil]
    rw [← List.range_eq_range'] at e1
    rw [if_neg (by decide)]
    simp only [ExpData.pyIndex, show (0 : Int) ≤ 0 ∧ (0 : Int) < ((0 + 1 : Nat) : Int) by decide, and_self, if_true, Int.toNat_zero,
          List.getElem?_cons_zero, List.eraseIdx_cons_zero, Function.comp_def, e1]
    obtain ⟨row, rest, rfl⟩ := List.exists_cons_of_length_pos (l := rows) (by omega)
    have h0 := hlen row (by simp)
    simp only [stackRows]
    rw [if_pos, h0]
    rw [List.all_eq_true]
    intro y hy
    simp [h0, hlen y (by simp [hy])]
  · intro j hj
    obtain ⟨k, k1, k2⟩ := e3 j hj
    refine ⟨k, by simpa using k1, ?_⟩
    rw [← k2]
    simp [rowAt, Arr.row?]

/-! ## The dictionary -/

theorem fold51_get (r : Noise W ℝ) (S : Setup) (M : Nat) (d : Dict String (CPD ℝ W)) :
    (∀ v, (∀ i, 1 ≤ i → i ≤ M → v ≠ vName i ∧ v ≠ zName i) → ((List.range' 1 M).foldl (addPath51 r S) d).get? v = d.get? v) ∧
    ∀ i, 1 ≤ i → i ≤ M →
      ((List.range' 1 M).foldl (addPath51 r S) d).get? (vName i) = some (vCpd r (S.p.muV.getD i []) (S.p.covV.getD i [])) ∧
      ((List.range' 1 M).foldl (addPath51 r S) d).get? (zName i) =
        some (zCpd51 r (S.p.alpha.getD i (0, [])) (S.p.muZ.getD i []) (S.p.covZ.getD i [])) := by
  induction M with
  | zero => exact ⟨fun v _ => rfl, fun i h1 h2 => by omega⟩
  | succ M ih =>
    rw [List.range'_1_concat, List.foldl_append]
    simp only [List.foldl_cons, List.foldl_nil]
    generalize List.foldl (addPath51 r S) d (List.range' 1 M) = D at ih ⊢
    obtain ⟨i1, i2⟩ := ih
    refine ⟨?_, ?_⟩
    · intro v hv
      obtain ⟨a, b⟩ := hv (1 + M) (by omega) (by omega)
      rw [addPath51, Dict.get?_set, Dict.get?_set, if_neg (Ne.symm b), if_neg (Ne.symm a)]
      exact i1 v fun i h1 h2 => hv i h1 (by omega)
    · intro i h1 h2
      by_cases hi : i = 1 + M
      · subst hi
        refine ⟨?_, ?_⟩
        · rw [addPath51, Dict.get?_set, Dict.get?_set, if_neg (vName_ne_zName _ _).symm, if_pos rfl]
        · rw [addPath51, Dict.get?_set, if_pos rfl]
      · obtain ⟨a, b⟩ := i2 i h1 (by omega)
        refine ⟨?_, ?_⟩
        · rw [addPath51, Dict.get?_set, Dict.get?_set, if_neg (vName_ne_zName _ _).symm, if_neg (fun h => hi (vName_inj h).symm), a]
        · rw [addPath51, Dict.get?_set, Dict.get?_set, if_neg (fun h => hi (zName_inj h).symm), if_neg (vName_ne_zName _ _), b]

theorem cpds51_get (r : Noise W ℝ) (S : Setup) (M : Nat) :
    (cpds51 r S M).get? "X" = some (xCpd51 r S) ∧ (cpds51 r S M).get? "Y" = some (yCpd51 r S) ∧
    (cpds51 r S M).get? "Z0" = some (z0Cpd r S) ∧
    ∀ i, 1 ≤ i → i ≤ M →
      (cpds51 r S M).get? (vName i) = some (vCpd r (S.p.muV.getD i []) (S.p.covV.getD i [])) ∧
      (cpds51 r S M).get? (zName i) = some (zCpd51 r (S.p.alpha.getD i (0, [])) (S.p.muZ.getD i []) (S.p.covZ.getD i [])) := by
  obtain ⟨i1, i2⟩ := fold51_get r S M [("X", xCpd51 r S), ("Y", yCpd51 r S)]
  unfold cpds51
  have hzx : ("Z0" : String) ≠ "X" := by decide +kernel
  have hzy : ("Z0" : String) ≠ "Y" := by decide +kernel
  refine ⟨?_, ?_, ?_, ?_⟩
  · rw [Dict.get?_set, if_neg hzx, i1 _ fun i _ _ => ⟨(name_facts i).1.symm, (name_facts i).2.2.2.1.symm⟩]
    rfl
  · rw [Dict.get?_set, if_neg hzy, i1 _ fun i _ _ => ⟨(name_facts i).2.1.symm, (name_facts i).2.2.2.2.symm⟩]
    simp [Dict.get?, show ("X" : String) ≠ "Y" by decide +kernel]
  · rw [Dict.get?_set, if_pos rfl]
  · intro i h1 h2
    obtain ⟨a, b⟩ := i2 i h1 h2
    rw [Dict.get?_set, Dict.get?_set, if_neg (name_facts i).2.2.1.symm, if_neg (zName_ne_z0 (by omega)).symm]
    exact ⟨a, b⟩

/-! ## Shapes -/

/-- The shapes of the samples; `Zs` is that of `Z0`. -/
structure Shape (zDim vDim : List Nat) (M n : Nat) (Zs : Arr ℝ → Prop) (name : String) (a : Arr ℝ) : Prop where
  v : ∀ i, 1 ≤ i → i ≤ M → name = vName i → IsMat n (vDim.getD i 0) a
  z : ∀ i, 1 ≤ i → i ≤ M → name = zName i → IsMat n (zDim.getD i 0) a
  x : name = "X" → ∃ f : Nat → ℝ, (∀ j, f j = 0 ∨ f j = 1) ∧ a = .d1 ((List.range n).map f)
  z0 : name = "Z0" → Zs a

variable {zDim vDim : List Nat} {M n : Nat} {Zs : Arr ℝ → Prop} {a : Arr ℝ}

theorem shape_v {i : Nat} (h : IsMat n (vDim.getD i 0) a) : Shape zDim vDim M n Zs (vName i) a :=
  ⟨fun k _ _ e => by rw [← vName_inj e]; exact h, fun k _ _ e => absurd e (vName_ne_zName i k), fun e => absurd e (name_facts i).1,
    fun e => absurd e (name_facts i).2.2.1⟩

theorem shape_z {i : Nat} (hi : i ≠ 0) (h : IsMat n (zDim.getD i 0) a) : Shape zDim vDim M n Zs (zName i) a :=
  ⟨fun k _ _ e => absurd e.symm (vName_ne_zName k i), fun k _ _ e => by rw [← zName_inj e]; exact h, fun e => absurd e (name_facts i).2.2.2.1,
    fun e => absurd e (zName_ne_z0 hi)⟩

theorem shape_x (f : Nat → ℝ) (hf : ∀ j, f j = 0 ∨ f j = 1) : Shape zDim vDim M n Zs "X" (.d1 ((List.range n).map f)) :=
  ⟨fun k _ _ e => absurd e.symm (name_facts k).1, fun k _ _ e => absurd e.symm (name_facts k).2.2.2.1, fun _ => ⟨f, hf, rfl⟩,
    fun e => absurd e (by decide +kernel)⟩

theorem shape_z0 (h : Zs a) : Shape zDim vDim M n Zs "Z0" a :=
  ⟨fun k _ _ e => absurd e.symm (name_facts k).2.2.1, fun k h1 _ e => absurd e.symm (zName_ne_z0 (by omega)), fun e => absurd e (by decide +kernel),
    fun _ => h⟩

theorem shape_y : Shape zDim vDim M n Zs "Y" a :=
  ⟨fun k _ _ e => absurd e.symm (name_facts k).2.1, fun k h1 _ e => absurd e.symm (name_facts k).2.2.2.2, fun e => absurd e (by decide +kernel),
    fun e => absurd e (by decide +kernel)⟩

section
variable {P : ℝ → Prop} {S : Setup} (hS : GoodSetup P zDim vDim M S)
include hS

theorem GoodSetup.muV {i : Nat} (h1 : 1 ≤ i) (h2 : i ≤ M) : (S.p.muV.getD i []).length = vDim.getD i 0 := by
  simp [(hS.p.path i h1 h2).muV]

theorem GoodSetup.muZ {i : Nat} (h1 : 1 ≤ i) (h2 : i ≤ M) : (S.p.muZ.getD i []).length = zDim.getD i 0 := by
  simp [(hS.p.path i h1 h2).muZ]

theorem GoodSetup.gammaLen {i : Nat} (h : i < M) : (S.p.gamma.getD i []).length = vDim.getD (i + 1) 0 := by
  obtain ⟨s, g, a, b, k1, k2, k3, k4, k5, k6, k7, k8⟩ := (hS.p.path (i + 1) (by omega) (by omega)).coeffs
  rw [Nat.add_sub_cancel] at k6
  simp only [List.getD_eq_getElem?_getD, k6, Option.getD_some, List.length_map, k2]

theorem GoodSetup.alphaLen {i : Nat} (h1 : 1 ≤ i) (h2 : i ≤ M) :
    (S.p.alpha.getD i (0, [])).1 = zDim.getD i 0 ∧ (S.p.alpha.getD i (0, [])).2.length = vDim.getD i 0 := by
  obtain ⟨s, g, a, b, k1, k2, k3, k4, k5, k6, k7, k8⟩ := (hS.p.path i h1 h2).coeffs
  simp only [List.getD_eq_getElem?_getD, k7, Option.getD_some, List.length_map, k3, and_self]

theorem GoodSetup.betaLen {i : Nat} (h : i ≤ M) : (S.p.beta.getD i []).length = zDim.getD i 0 := by
  rcases Nat.eq_zero_or_pos i with rfl | hi
  · obtain ⟨b, h1, h2⟩ := hS.p.beta0
    simp only [List.getD_eq_getElem?_getD, h1, Option.getD_some, h2]
  · obtain ⟨s, g, a, b, k1, k2, k3, k4, k5, k6, k7, k8⟩ := (hS.p.path i hi h).coeffs
    simp only [List.getD_eq_getElem?_getD, k8, Option.getD_some, List.length_map, k5]

theorem typed51 (r : Noise W ℝ) (hr : GoodNoise r) (hM : 1 ≤ M)
    (hz0 : ∀ (f : Nat → ℝ), (∀ j, f j = 0 ∨ f j = 1) → ∀ w, ∃ a w', z0Cpd r S n [.d1 ((List.range n).map f)] w = (.ok a, w') ∧ Zs a) :
    ∀ v ∈ (graph M).varNames, v ≠ "Y" → (paperScm M (cpds51 r S M)).TypedAt n (Shape zDim vDim M n Zs) v := by
  obtain ⟨c1, c2, c3, c4⟩ := cpds51_get r S M
  have inv := graphInv M
  have hp : (graph M).parents = ((List.range' 1 M).foldl graphStep graphInit).parents := rfl
  intro v hv hy ps cpd hps hcpd s w hsh
  have hps : (graph M).parents.get? v = some ps := hps
  have hcpd : (cpds51 r S M).get? v = some cpd := hcpd
  rw [hp] at hps
  rcases (mem_graph_vars M v).mp hv with ⟨i, h1, h2, rfl | rfl⟩ | rfl | rfl | rfl
  · rw [(c4 i h1 h2).1] at hcpd; cases hcpd
    rw [vCpd_eq]
    refine ⟨_, _, rfl, shape_v ?_⟩
    rw [hS.muV h1 h2]
    exact isMat_map _ _ _ fun j => by rw [← hS.muV h1 h2]; exact hr.mvn _ _ _
  · rw [(c4 i h1 h2).2] at hcpd; cases hcpd
    rw [inv.z i h1 h2] at hps; cases hps
    obtain ⟨a1, a2⟩ := hS.alphaLen h1 h2
    have := zCpd51_eq r hr.mvn n (vDim.getD i 0) (zDim.getD i 0) (S.p.alpha.getD i (0, [])).2 a2 (S.p.muZ.getD i []) (hS.muZ h1 h2)
      (S.p.covZ.getD i []) n (s (vName i)) ((hsh _ (by simp)).v i h1 h2 rfl) w
    rw [← a1] at this
    refine ⟨_, _, this, shape_z (by omega) ?_⟩
    rw [a1]
    exact isMat_map _ _ _ fun j => by simp
  · rw [c1] at hcpd; cases hcpd
    rw [inv.x] at hps; cases hps
    have := xCpd51_eq r hr.sig S n M hM hS.p.gamma (fun i => vDim.getD (i + 1) 0) (fun i hi => hS.gammaLen hi) (fun i => s (vName (i + 1)))
      (fun i hi => (hsh (vName (i + 1)) (List.mem_map.mpr ⟨i + 1, by rw [List.mem_range'_1]; omega, rfl⟩)).v (i + 1) (by omega) (by omega) rfl) n w
    have e : ((List.range' 1 M).map vName).map s = (List.range M).map fun i => s (vName (i + 1)) := by
      simp [List.range'_eq_map_range, Function.comp_def, Nat.add_comm]
    rw [e, this]
    exact ⟨_, _, rfl, shape_x _ fun j => by split <;> simp⟩
  · rw [c3] at hcpd; cases hcpd
    rw [inv.z0] at hps; cases hps
    obtain ⟨f, hf, hx⟩ := (hsh "X" (by simp)).x rfl
    obtain ⟨a, w', e, ha⟩ := hz0 f hf w
    refine ⟨a, w', ?_, shape_z0 ha⟩
    rw [List.map_cons, List.map_nil, hx]
    exact e
  · exact absurd rfl hy

theorem typed51_y (r : Noise W ℝ) : (paperScm M (cpds51 r S M)).TypedAt n (Shape zDim vDim M n (IsMat n (zDim.getD 0 0))) "Y" := by
  obtain ⟨c1, c2, c3, c4⟩ := cpds51_get r S M
  have inv := graphInv M
  have hp : (graph M).parents = ((List.range' 1 M).foldl graphStep graphInit).parents := rfl
  intro ps cpd hps hcpd s w hsh
  have hps : (graph M).parents.get? "Y" = some ps := hps
  have hcpd : (cpds51 r S M).get? "Y" = some cpd := hcpd
  rw [hp] at hps
  rw [c2] at hcpd; cases hcpd
  rw [inv.y] at hps; cases hps
  have := yCpd51_eq r S n M hS.p.beta (fun i => zDim.getD i 0) (fun i hi => hS.betaLen hi) (fun i => s (zName i))
    (fun i hi => by
      rcases Nat.eq_zero_or_pos i with rfl | hi'
      · rw [← z0_eq]; exact (hsh "Z0" (by simp)).z0 rfl
      · exact (hsh (zName i) (List.mem_cons_of_mem _ (List.mem_map.mpr ⟨i, by rw [List.mem_range'_1]; omega, rfl⟩))).z i hi' hi rfl) n w
  have e : ("Z0" :: (List.range' 1 M).map zName).map s = (List.range (M + 1)).map fun i => s (zName i) := by
    rw [List.range_succ_eq_map, z0_eq]
    simp [List.range'_eq_map_range, Function.comp_def, Nat.add_comm]
  rw [e, this]
  exact ⟨_, _, rfl, shape_y⟩

end

end Section5
end Verif
