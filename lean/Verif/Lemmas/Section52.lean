import Verif.Lemmas.Section51
import Verif.Props.Nonlinear

/-!
# Lemmas about the CPDs of Section 5.2
-/

set_option linter.unusedSectionVars false
set_option linter.unusedSimpArgs false

namespace Verif
namespace Section5
open Cpds Paper
variable {R W K F : Type}

/-! ## The random functions -/

theorem randomFnList_eq (lib : Nonlinear.GPLib K F ℝ) (g : Gens R W) (kernel : K) (b : ℝ) (ds : List (Nat × Nat)) (s : R × W) :
    ∃ fs w', randomFnList lib g kernel b ds s = (.ok fs, (s.1, w')) ∧ fs.length = ds.length ∧
      ∀ i, i < ds.length → ∃ f, fs[i]? = some (List.replicate (ds.getD i (0, 0)).2 f) := by
  induction ds generalizing s with
  | nil => exact ⟨[], s.2, rfl, rfl, fun i hi => by simp at hi⟩
  | cons d ds ih =>
    obtain ⟨f, hf, -⟩ := Nonlinear.C63_same_sample_violated lib g.randint d.1 d.2 (some kernel) (-b) b 10 none 1 s.2
    obtain ⟨fs, w', e1, e2, e3⟩ := ih (s.1, (Nonlinear.randomFns lib g.randint d.1 d.2 (some kernel) (-b) b 10 none 1 s.2).2)
    refine ⟨List.replicate d.2 f :: fs, w', ?_, by simp [e2], ?_⟩
    · have h1 : randomFn lib g kernel b d.1 d.2 s = (.ok (List.replicate d.2 f), (s.1, (Nonlinear.randomFns lib g.randint d.1 d.2 (some kernel) (-b) b 10 none 1 s.2).2)) := by
        unfold randomFn
        rw [← hf]
        rfl
      rw [randomFnList]
      simp only [Py.bind_apply, h1, e1, Py.pure_apply]
    · intro i hi
      cases i with
      | zero => exact ⟨f, rfl⟩
      | succ i => exact e3 i (by simpa using hi)

theorem pathDims_eq (zDim vDim : List Nat) (is : List Nat) (h : ∀ i ∈ is, i < zDim.length ∧ i < vDim.length) :
    pathDims zDim vDim is = .ok (is.map fun i => (vDim.getD i 0, zDim.getD i 0)) := by
  induction is with
  | nil => rfl
  | cons i is ih =>
    obtain ⟨h1, h2⟩ := h i (by simp)
    rw [pathDims, at'_eq vDim i 0 h2, at'_eq zDim i 0 h1, ih fun j hj => h j (by simp [hj])]
    rfl

/-- What is known of the functions. -/
structure GoodFns (zDim vDim : List Nat) (M : Nat) (fns : Fns F) (fx fz fy : Nat → F) : Prop where
  yLen : fns.fY.length = zDim.length
  xLen : fns.fX.length = vDim.length - 1
  zLen : fns.fZ.length = M
  y : ∀ i, i < zDim.length → fns.fY[i]? = some [fy i]
  x : ∀ i, i < vDim.length - 1 → fns.fX[i]? = some [fx i]
  z : ∀ i, i < M → fns.fZ[i]? = some (List.replicate (zDim.getD (i + 1) 0) (fz i))

theorem functions52_eq (lib : Nonlinear.GPLib K F ℝ) (g : Gens R W) (kernel : K) (zDim vDim : List Nat) (M : Nat)
    (hz : M < zDim.length) (hv : M < vDim.length) (s : R × W) :
    ∃ fns fx fz fy w', functions52 lib g kernel zDim vDim M s = (.ok fns, (s.1, w')) ∧ GoodFns zDim vDim M fns fx fz fy := by
  obtain ⟨fY, w1, y1, y2, y3⟩ := randomFnList_eq lib g kernel 2 (zDim.map fun d => (d, 1)) s
  obtain ⟨fX, w2, x1, x2, x3⟩ := randomFnList_eq lib g kernel 2 (vDim.tail.map fun d => (d, 1)) (s.1, w1)
  obtain ⟨fZ, w3, z1, z2, z3⟩ := randomFnList_eq lib g kernel 1 ((List.range' 1 M).map fun i => (vDim.getD i 0, zDim.getD i 0)) (s.1, w2)
  have hd := pathDims_eq zDim vDim (List.range' 1 M) (fun i hi => by rw [List.mem_range'_1] at hi; omega)
  have ⟨f0⟩ : Nonempty F := by
    obtain ⟨f, hf, -⟩ := Nonlinear.C63_same_sample_violated lib g.randint 0 0 (some kernel) 0 0 10 none 1 s.2
    exact ⟨f⟩
  classical
  refine ⟨⟨fY, fX, fZ⟩, fun i => ((fX.getD i []).head?).getD f0, fun i => ((fZ.getD i []).head?).getD f0, fun i => ((fY.getD i []).head?).getD f0, w3, ?_, ?_⟩
  · unfold functions52
    simp only [Py.bind_apply, y1, x1, hd, Py.lift_apply, z1, Py.pure_apply]
  · refine ⟨by simpa using y2, by simpa using x2, by simpa using z2, ?_, ?_, ?_⟩
    · intro i hi
      obtain ⟨f, hf⟩ := y3 i (by simpa using hi)
      have hf : fY[i]? = some [f] := by
        rw [hf]; simp [hi]
      rw [hf, List.getD_eq_getElem?_getD, hf]; rfl
    · intro i hi
      obtain ⟨f, hf⟩ := x3 i (by simpa using hi)
      have hf : fX[i]? = some [f] := by
        rw [hf]; simp [hi]
      rw [hf, List.getD_eq_getElem?_getD, hf]; rfl
    · intro i hi
      obtain ⟨f, hf⟩ := z3 i (by simpa using hi)
      have hf : fZ[i]? = some (List.replicate (zDim.getD (i + 1) 0) f) := by
        rw [hf]; simp [hi, Nat.add_comm]
      have hg : fZ.getD i [] = List.replicate (zDim.getD (i + 1) 0) f := by rw [List.getD_eq_getElem?_getD, hf]; rfl
      rw [hf, hg]
      cases zDim.getD (i + 1) 0 <;> rfl

theorem outF_replicate (lib : Nonlinear.GPLib K F ℝ) (f : F) (k : Nat) (hk : 1 ≤ k) (x : List (List ℝ)) :
    Nonlinear.outF lib (List.replicate k f) x = .ok (.d2 k ((lib.predict f x).map fun v => List.replicate k v)) := by
  obtain ⟨k, rfl⟩ : ∃ m, k = m + 1 := ⟨k - 1, by omega⟩
  unfold Nonlinear.outF
  rw [List.replicate_succ, List.map_cons, List.map_replicate, SCM.columnStack, if_neg]
  · congr 1
    simp only [List.map_cons, List.map_replicate, Arr.nFeatures, SCM.asRows]
    rw [Nonlinear.hcat_foldl _ _ _ (by simp)]
    congr 1
    · simp; omega
    · apply List.ext_getElem
      · simp
      · intro i h2 h3
        simp [List.replicate_succ]
  · simp only [List.any_eq_true, decide_eq_true_eq, not_exists, not_and, not_not]
    intro b hb
    rw [List.eq_of_mem_replicate hb]

theorem applyFn_eq {lib : Nonlinear.GPLib K F ℝ} {pred : F → List ℝ → ℝ} (hl : RowWise lib pred) (f : F) (k : Nat) (hk : 1 ≤ k) {n d : Nat} (hn : 1 ≤ n)
    {a : Arr ℝ} (ha : IsMat n d a) :
    applyFn lib (List.replicate k f) a = .ok (.d2 k ((List.range n).map fun j => List.replicate k (pred f (rowAt a j)))) := by
  obtain ⟨rows, rfl, h1, h2⟩ := ha
  obtain ⟨row, rest, rfl⟩ := List.exists_cons_of_length_pos (l := rows) (by omega)
  unfold applyFn
  dsimp only
  rw [outF_replicate lib f k hk, hl]
  congr 2
  rw [List.map_map]
  have := map_range_getElem? (row :: rest) n h1 [] (fun r => List.replicate k (pred f r))
  exact this

theorem addArrs_col (n : Nat) (f g : Nat → ℝ) :
    addArrs (.d2 1 ((List.range n).map fun j => [f j])) (.d2 1 ((List.range n).map fun j => [g j])) =
      .ok (.d2 1 ((List.range n).map fun j => [f j + g j])) := by
  have := addArrs_d2 n 1 (fun j _ => f j) (fun j _ => g j)
  simpa using this

theorem foldCol (n : Nat) (l : List Nat) (t : Nat → Nat → ℝ) (f : Nat → ℝ) :
    (l.map fun i => (Arr.d2 1 ((List.range n).map fun j => [t i j]) : Arr ℝ)).foldlM addArrs (.d2 1 ((List.range n).map fun j => [f j])) =
      .ok (.d2 1 ((List.range n).map fun j => [f j + (l.map fun i => t i j).sum])) := by
  induction l generalizing f with
  | nil => simp; rfl
  | cons i l ih =>
    rw [List.map_cons, List.foldlM_cons, addArrs_col]
    simp only [bind, Except.bind]
    rw [ih]
    simp [add_assoc]

theorem mapM_ok {γ δ : Type} (l : List γ) (f : γ → Except PyErr δ) (h : γ → δ) (hf : ∀ x ∈ l, f x = .ok (h x)) : l.mapM f = .ok (l.map h) := by
  induction l with
  | nil => rfl
  | cons x l ih =>
    rw [List.mapM_cons, hf x (by simp), ih fun y hy => hf y (by simp [hy])]
    rfl

theorem mapM_error {γ δ : Type} (l : List γ) (f : γ → Except PyErr δ) (h : γ → δ) (e : PyErr) (hf : ∀ x ∈ l, f x = .ok (h x)) (y : γ) (hy : f y = .error e)
    (rest : List γ) : (l ++ y :: rest).mapM f = .error e := by
  induction l with
  | nil => rw [List.nil_append, List.mapM_cons, hy]; rfl
  | cons x l ih =>
    rw [List.cons_append, List.mapM_cons, hf x (by simp), ih fun y hy => hf y (by simp [hy])]
    rfl

theorem fnAt_eq {lib : Nonlinear.GPLib K F ℝ} {pred : F → List ℝ → ℝ} (hl : RowWise lib pred) (fns : List (List F)) (m : Nat) (f : Nat → F)
    (hf : ∀ i, i < m → fns[i]? = some [f i]) {n : Nat} (hn : 1 ≤ n) (d : Nat → Nat) (a : Nat → Arr ℝ) (ha : ∀ i, i < m → IsMat n (d i) (a i)) (i : Nat) (hi : i < m) :
    fnAt lib fns ((List.range m).map a) i = .ok (.d2 1 ((List.range n).map fun j => [pred (f i) (rowAt (a i) j)])) := by
  have h1 : at' fns i = .ok [f i] := by simp [at', hf i hi]
  have h2 : at' ((List.range m).map a) i = .ok (a i) := by simp [at', hi]
  unfold fnAt
  rw [h1, h2]
  exact applyFn_eq hl (f i) 1 le_rfl hn (ha i hi)

theorem sumFns_eq {lib : Nonlinear.GPLib K F ℝ} {pred : F → List ℝ → ℝ} (hl : RowWise lib pred) (fns : List (List F)) (m : Nat) (hm : 1 ≤ m) (hlen : fns.length = m)
    (f : Nat → F) (hf : ∀ i, i < m → fns[i]? = some [f i]) {n : Nat} (hn : 1 ≤ n) (d : Nat → Nat) (a : Nat → Arr ℝ) (ha : ∀ i, i < m → IsMat n (d i) (a i)) :
    sumFns lib fns ((List.range m).map a) = .ok (.d2 1 ((List.range n).map fun j => [∑ i ∈ Finset.range m, pred (f i) (rowAt (a i) j)])) := by
  unfold sumFns
  rw [hlen, mapM_ok _ _ (fun i => .d2 1 ((List.range n).map fun j => [pred (f i) (rowAt (a i) j)])) (fun i hi =>
    fnAt_eq hl fns m f hf hn d a ha i (List.mem_range.mp hi))]
  obtain ⟨m, rfl⟩ : ∃ k, m = k + 1 := ⟨m - 1, by omega⟩
  rw [List.range_succ_eq_map, List.map_cons]
  simp only [bind, Except.bind, foldCol]
  congr 3
  funext j
  rw [Finset.sum_range_succ', ← sum_range_list, List.map_map, add_comm]
  rfl

/-- One function too many. -/
theorem sumFns_short {lib : Nonlinear.GPLib K F ℝ} {pred : F → List ℝ → ℝ} (hl : RowWise lib pred) (fns : List (List F)) (m : Nat) (hlen : m < fns.length)
    (f : Nat → F) (hf : ∀ i, i < m → fns[i]? = some [f i]) {n : Nat} (hn : 1 ≤ n) (d : Nat → Nat) (a : Nat → Arr ℝ) (ha : ∀ i, i < m → IsMat n (d i) (a i)) :
    sumFns lib fns ((List.range m).map a) = .error .indexError := by
  unfold sumFns
  have hr : List.range fns.length = List.range m ++ m :: List.range' (m + 1) (fns.length - m - 1) := by
    rw [List.range_eq_range', List.range_eq_range', ← List.range'_succ, show List.range' m (fns.length - m - 1 + 1) = List.range' (0 + 1 * m) (fns.length - m) by congr 1 <;> omega,
      List.range'_append]
    congr 1; omega
  have he : fnAt lib fns ((List.range m).map a) m = .error .indexError := by
    unfold fnAt
    have h1 : at' fns m = .ok fns[m] := by simp [at', hlen]
    have h2 : at' ((List.range m).map a) m = .error .indexError := by simp [at']
    rw [h1, h2]; rfl
  rw [hr, mapM_error _ _ (fun i => .d2 1 ((List.range n).map fun j => [pred (f i) (rowAt (a i) j)])) .indexError (fun i hi =>
    fnAt_eq hl fns m f hf hn d a ha i (List.mem_range.mp hi)) m he]
  rfl

/-! ## The CPDs -/

theorem flatten_col (n : Nat) (f : Nat → ℝ) : ((List.range n).map fun j => [f j]).flatten = (List.range n).map f := by
  induction List.range n with
  | nil => rfl
  | cons a l ih => rw [List.map_cons, List.flatten_cons, ih]; rfl

theorem xCpd52_eq (r : Noise W ℝ) (hr : GoodNoise r) {lib : Nonlinear.GPLib K F ℝ} {pred : F → List ℝ → ℝ} (hl : RowWise lib pred) (fns : Fns F) (m : Nat) (hm : 1 ≤ m)
    (hlen : fns.fX.length = m) (f : Nat → F) (hf : ∀ i, i < m → fns.fX[i]? = some [f i]) {n : Nat} (hn : 1 ≤ n) (d : Nat → Nat) (a : Nat → Arr ℝ)
    (ha : ∀ i, i < m → IsMat n (d i) (a i)) (n' : Nat) (w : W) :
    xCpd52 r lib fns n' ((List.range m).map a) w = (.ok (.d1 ((List.range n).map fun j =>
      if nthDraw r.unif w j < r.sig (∑ i ∈ Finset.range m, pred (f i) (rowAt (a i) j)) then 1 else 0)), afterDraws r.unif w n) := by
  unfold xCpd52
  rw [sumFns_eq hl fns.fX m hm hlen f hf hn d a ha]
  simp only [flatten, flatten_col, List.map_map, Function.comp_def]
  rw [binomial_eq r hr.sig]

theorem yCpd52_eq (r : Noise W ℝ) {lib : Nonlinear.GPLib K F ℝ} {pred : F → List ℝ → ℝ} (hl : RowWise lib pred) (fns : Fns F) (m : Nat) (hm : 1 ≤ m)
    (hlen : fns.fY.length = m) (f : Nat → F) (hf : ∀ i, i < m → fns.fY[i]? = some [f i]) {n : Nat} (hn : 1 ≤ n) (d : Nat → Nat) (a : Nat → Arr ℝ)
    (ha : ∀ i, i < m → IsMat n (d i) (a i)) (n' : Nat) (w : W) :
    yCpd52 r lib fns n' ((List.range m).map a) w = (.ok (.d1 ((List.range n).map fun j =>
      ∑ i ∈ Finset.range m, pred (f i) (rowAt (a i) j) + r.sqrt (1 / 10) * nthDraw r.gauss w j)), afterDraws r.gauss w n) := by
  unfold yCpd52
  rw [sumFns_eq hl fns.fY m hm hlen f hf hn d a ha]
  dsimp only
  rw [(C72_noise r n w).2.1 (fun j => ∑ i ∈ Finset.range m, pred (f i) (rowAt (a i) j)) 0 (1 / 10)]
  simp only [noiseAt, zero_add]

theorem columnStack_single {n d : Nat} {a : Arr ℝ} (ha : IsMat n d a) : ∃ b, SCM.columnStack [a] = .ok b ∧ IsMat n d b ∧ ∀ j, rowAt b j = rowAt a j := by
  obtain ⟨rows, rfl, h1, h2⟩ := ha
  refine ⟨.d2 d rows, ?_, ⟨rows, rfl, h1, h2⟩, fun j => rfl⟩
  simp [SCM.columnStack, Arr.nFeatures, SCM.asRows]

theorem zCpd52_eq (r : Noise W ℝ) (hr : GoodNoise r) {lib : Nonlinear.GPLib K F ℝ} {pred : F → List ℝ → ℝ} (hl : RowWise lib pred) (f : F) (k : Nat) (hk : 1 ≤ k)
    {n d : Nat} (hn : 1 ≤ n) (mean : List ℝ) (hm : mean.length = k) (cov : List (List ℝ)) (a : Arr ℝ) (ha : IsMat n d a) (n' : Nat) (w : W) :
    zCpd52 r lib (List.replicate k f) mean cov n' [a] w = (.ok (.d2 k ((List.range n).map fun j => (List.range k).map fun l =>
      pred f (rowAt a j) + (nthDraw (r.mvn mean cov) w j).getD l 0)), afterDraws (r.mvn mean cov) w n) := by
  obtain ⟨b, hb, hbm, hbr⟩ := columnStack_single ha
  have hrep : ∀ x : ℝ, List.replicate k x = (List.range k).map fun _ => x := by
    intro x; apply List.ext_getElem <;> simp
  unfold zCpd52 structuralEquation
  simp only [Py.bind_apply, Py.lift_apply, nUnits, hb, applyFn_eq hl f k hk hn hbm, ha.len, hbr, hrep]
  exact addMvns_eq r k (fun j _ => pred f (rowAt a j)) mean cov hm (hr.mvn mean cov) n w

/-! ## The dictionary -/

theorem fold52_get (r : Noise W ℝ) (lib : Nonlinear.GPLib K F ℝ) (S : Setup) (fns : Fns F) (M : Nat) (d : Dict String (CPD ℝ W)) :
    (∀ v, (∀ i, 1 ≤ i → i ≤ M → v ≠ vName i ∧ v ≠ zName i) → ((List.range' 1 M).foldl (addPath52 r lib S fns) d).get? v = d.get? v) ∧
    ∀ i, 1 ≤ i → i ≤ M →
      ((List.range' 1 M).foldl (addPath52 r lib S fns) d).get? (vName i) = some (vCpd r (S.p.muV.getD i []) (S.p.covV.getD i [])) ∧
      ((List.range' 1 M).foldl (addPath52 r lib S fns) d).get? (zName i) =
        some (zCpd52 r lib (fns.fZ.getD (i - 1) []) (S.p.muZ.getD i []) (S.p.covZ.getD i [])) := by
  induction M with
  | zero => exact ⟨fun v _ => rfl, fun i h1 h2 => by omega⟩
  | succ M ih =>
    rw [List.range'_1_concat, List.foldl_append]
    simp only [List.foldl_cons, List.foldl_nil]
    generalize List.foldl (addPath52 r lib S fns) d (List.range' 1 M) = D at ih ⊢
    obtain ⟨i1, i2⟩ := ih
    refine ⟨?_, ?_⟩
    · intro v hv
      obtain ⟨a, b⟩ := hv (1 + M) (by omega) (by omega)
      rw [addPath52, Dict.get?_set, Dict.get?_set, if_neg (Ne.symm b), if_neg (Ne.symm a)]
      exact i1 v fun i h1 h2 => hv i h1 (by omega)
    · intro i h1 h2
      by_cases hi : i = 1 + M
      · subst hi
        refine ⟨?_, ?_⟩
        · rw [addPath52, Dict.get?_set, Dict.get?_set, if_neg (vName_ne_zName _ _).symm, if_pos rfl]
        · rw [addPath52, Dict.get?_set, if_pos rfl]
      · obtain ⟨a, b⟩ := i2 i h1 (by omega)
        refine ⟨?_, ?_⟩
        · rw [addPath52, Dict.get?_set, Dict.get?_set, if_neg (vName_ne_zName _ _).symm, if_neg (fun h => hi (vName_inj h).symm), a]
        · rw [addPath52, Dict.get?_set, Dict.get?_set, if_neg (fun h => hi (zName_inj h).symm), if_neg (vName_ne_zName _ _), b]

theorem cpds52_get (r : Noise W ℝ) (lib : Nonlinear.GPLib K F ℝ) (S : Setup) (fns : Fns F) (M : Nat) :
    (cpds52 r lib S fns M).get? "X" = some (xCpd52 r lib fns) ∧ (cpds52 r lib S fns M).get? "Y" = some (yCpd52 r lib fns) ∧
    (cpds52 r lib S fns M).get? "Z0" = some (z0Cpd r S) ∧
    ∀ i, 1 ≤ i → i ≤ M →
      (cpds52 r lib S fns M).get? (vName i) = some (vCpd r (S.p.muV.getD i []) (S.p.covV.getD i [])) ∧
      (cpds52 r lib S fns M).get? (zName i) = some (zCpd52 r lib (fns.fZ.getD (i - 1) []) (S.p.muZ.getD i []) (S.p.covZ.getD i [])) := by
  obtain ⟨i1, i2⟩ := fold52_get r lib S fns M [("X", xCpd52 r lib fns), ("Y", yCpd52 r lib fns), ("Z0", z0Cpd r S)]
  unfold cpds52
  refine ⟨?_, ?_, ?_, i2⟩
  · rw [i1 _ fun i _ _ => ⟨(name_facts i).1.symm, (name_facts i).2.2.2.1.symm⟩]
    rfl
  · rw [i1 _ fun i _ _ => ⟨(name_facts i).2.1.symm, (name_facts i).2.2.2.2.symm⟩]
    simp [Dict.get?, show ("X" : String) ≠ "Y" by decide +kernel]
  · rw [i1 _ fun i h1 _ => ⟨(name_facts i).2.2.1.symm, (zName_ne_z0 (by omega)).symm⟩]
    simp [Dict.get?, show ("X" : String) ≠ "Z0" by decide +kernel, show ("Y" : String) ≠ "Z0" by decide +kernel]

theorem cpds52_total (r : Noise W ℝ) (lib : Nonlinear.GPLib K F ℝ) (S : Setup) (fns : Fns F) (M : Nat) :
    (cpds52 r lib S fns M).get? "X" ≠ none ∧ (cpds52 r lib S fns M).get? "Y" ≠ none ∧ (cpds52 r lib S fns M).get? "Z0" ≠ none ∧
    ∀ i, 1 ≤ i → i ≤ M → (cpds52 r lib S fns M).get? (vName i) ≠ none ∧ (cpds52 r lib S fns M).get? (zName i) ≠ none := by
  obtain ⟨c1, c2, c3, c4⟩ := cpds52_get r lib S fns M
  refine ⟨by simp [c1], by simp [c2], by simp [c3], fun i h1 h2 => ⟨by simp [(c4 i h1 h2).1], by simp [(c4 i h1 h2).2]⟩⟩

theorem setup52_good (lib : Nonlinear.GPLib K F ℝ) (g : Gens R W) (kernel : K) (zDim vDim : List Nat) (M : Nat) (hM : 1 ≤ M)
    (hz : M < zDim.length) (hv : M < vDim.length) (fuel : Nat) (s0 : R × W) :
    setup52 lib g kernel zDim vDim M fuel s0 = none ∨
    ∃ S fns fx fz fy s', setup52 lib g kernel zDim vDim M fuel s0 = some (.ok (S, fns), s') ∧ GoodSetup (fun _ => True) zDim vDim M S ∧
      GoodFns zDim vDim M fns fx fz fy := by
  unfold setup52
  rcases setup_good g (fun _ => True) (strength52 g) (fun s => ⟨_, _, rfl, trivial⟩) zDim vDim M hM hz hv fuel s0 with h | ⟨S, s', h, h'⟩
  · left; rw [h]
  · right
    obtain ⟨fns, fx, fz, fy, w', e1, e2⟩ := functions52_eq lib g kernel zDim vDim M hz hv s'
    refine ⟨S, fns, fx, fz, fy, (s'.1, w'), ?_, h', e2⟩
    rw [h]
    dsimp only
    rw [e1]

section
variable {zDim vDim : List Nat} {M n : Nat} {P : ℝ → Prop} {S : Setup}

theorem typed52 (hS : GoodSetup P zDim vDim M S) {fns : Fns F} {fx fz fy : Nat → F} (hF : GoodFns zDim vDim M fns fx fz fy) (r : Noise W ℝ) (hr : GoodNoise r)
    {lib : Nonlinear.GPLib K F ℝ} {pred : F → List ℝ → ℝ} (hl : RowWise lib pred) (hM : 1 ≤ M) (hn : 1 ≤ n)
    (hpos : ∀ i, 1 ≤ i → i ≤ M → 1 ≤ zDim.getD i 0) :
    ∀ v ∈ (graph M).varNames, (v = "X" → vDim.length = M + 1) → (v = "Y" → zDim.length = M + 1) →
      (paperScm M (cpds52 r lib S fns M)).TypedAt n (Shape zDim vDim M n (IsMat n (zDim.getD 0 0))) v := by
  obtain ⟨c1, c2, c3, c4⟩ := cpds52_get r lib S fns M
  have inv := graphInv M
  have hp : (graph M).parents = ((List.range' 1 M).foldl graphStep graphInit).parents := rfl
  intro v hv hvl hzl ps cpd hps hcpd s w hsh
  have hps : (graph M).parents.get? v = some ps := hps
  have hcpd : (cpds52 r lib S fns M).get? v = some cpd := hcpd
  rw [hp] at hps
  rcases (mem_graph_vars M v).mp hv with ⟨i, h1, h2, rfl | rfl⟩ | rfl | rfl | rfl
  · rw [(c4 i h1 h2).1] at hcpd; cases hcpd
    rw [vCpd_eq]
    refine ⟨_, _, rfl, shape_v ?_⟩
    rw [hS.muV h1 h2]
    exact isMat_map _ _ _ fun j => by rw [← hS.muV h1 h2]; exact hr.mvn _ _ _
  · rw [(c4 i h1 h2).2] at hcpd; cases hcpd
    rw [inv.z i h1 h2] at hps; cases hps
    have hf : fns.fZ.getD (i - 1) [] = List.replicate (zDim.getD i 0) (fz (i - 1)) := by
      have := hF.z (i - 1) (by omega)
      rw [show i - 1 + 1 = i by omega] at this
      rw [List.getD_eq_getElem?_getD, this]; rfl
    have := zCpd52_eq r hr hl (fz (i - 1)) (zDim.getD i 0) (hpos i h1 h2) hn (S.p.muZ.getD i []) (hS.muZ h1 h2) (S.p.covZ.getD i [])
      (s (vName i)) ((hsh _ (by simp)).v i h1 h2 rfl) n w
    rw [hf]
    refine ⟨_, _, this, shape_z (by omega) ?_⟩
    exact isMat_map _ _ _ fun j => by simp
  · rw [c1] at hcpd; cases hcpd
    rw [inv.x] at hps; cases hps
    have hvl := hvl rfl
    have := xCpd52_eq r hr hl fns M hM (by rw [hF.xLen]; omega) fx (fun i hi => hF.x i (by omega)) hn (fun i => vDim.getD (i + 1) 0) (fun i => s (vName (i + 1)))
      (fun i hi => (hsh (vName (i + 1)) (List.mem_map.mpr ⟨i + 1, by rw [List.mem_range'_1]; omega, rfl⟩)).v (i + 1) (by omega) (by omega) rfl) n w
    have e : ((List.range' 1 M).map vName).map s = (List.range M).map fun i => s (vName (i + 1)) := by
      simp [List.range'_eq_map_range, Function.comp_def, Nat.add_comm]
    rw [e, this]
    exact ⟨_, _, rfl, shape_x _ fun j => by split <;> simp⟩
  · rw [c3] at hcpd; cases hcpd
    rw [inv.z0] at hps; cases hps
    obtain ⟨f, hf, hx⟩ := (hsh "X" (by simp)).x rfl
    obtain ⟨a, h1, h2, -⟩ := z0Cpd_eq r hr.unif S hS.wf hS.p0 hS.len0 hS.p1 hS.len1 f hf n n hn w
    refine ⟨a, afterDraws r.unif w n, ?_, shape_z0 (by rw [← hS.d]; exact h2)⟩
    rw [List.map_cons, List.map_nil, hx]
    exact h1
  · rw [c2] at hcpd; cases hcpd
    rw [inv.y] at hps; cases hps
    have hzl := hzl rfl
    have := yCpd52_eq r hl fns (M + 1) (by omega) (by rw [hF.yLen]; omega) fy (fun i hi => hF.y i (by omega)) hn (fun i => zDim.getD i 0) (fun i => s (zName i))
      (fun i hi => by
        rcases Nat.eq_zero_or_pos i with rfl | hi'
        · rw [← z0_eq]; exact (hsh "Z0" (by simp)).z0 rfl
        · exact (hsh (zName i) (List.mem_cons_of_mem _ (List.mem_map.mpr ⟨i, by rw [List.mem_range'_1]; omega, rfl⟩))).z i hi' (by omega) rfl) n w
    have e : ("Z0" :: (List.range' 1 M).map zName).map s = (List.range (M + 1)).map fun i => s (zName i) := by
      rw [List.range_succ_eq_map, z0_eq]
      simp [List.range'_eq_map_range, Function.comp_def, Nat.add_comm]
    rw [e, this]
    exact ⟨_, _, rfl, shape_y⟩

end

end Section5
end Verif
