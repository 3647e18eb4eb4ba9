import Verif.Spec.Cpds
import Verif.Props.LinearGen

/-!
# Lemmas about the CPD helpers
-/

set_option linter.unusedSectionVars false
set_option linter.unusedSimpArgs false

namespace Verif
namespace Cpds
variable {W α : Type} [Field α] [LinearOrder α]

theorem map_range_getElem? {γ δ : Type} (l : List γ) (n : Nat) (h : l.length = n) (d : γ) (f : γ → δ) :
    l.map f = (List.range n).map fun j => f ((l[j]?).getD d) := by
  subst h
  apply List.ext_getElem
  · simp
  · intro i h1 h2
    simp at h1
    simp [h1]

theorem dot_inner (z b : List α) (h : z.length = b.length) : LinGen.dot z b = ∑ i : Fin b.length, z.getD i 0 * b.getD i 0 := by
  have : z = (List.range b.length).map fun i => z.getD i 0 := by
    apply List.ext_getElem
    · simp [h]
    · intro i h1 h2
      simp [h1]
  conv_lhs => rw [this]
  exact LinGen.dot_eq _ _ b rfl

theorem rowMat_getD (k : Nat) (m : List (List α)) (z : List α) (h : z.length = m.length) :
    rowMat k m z = (List.range k).map fun l => ∑ i : Fin m.length, z.getD i 0 * (m.getD i []).getD l 0 := by
  unfold rowMat
  refine List.map_congr_left fun l _ => ?_
  have : List.zipWith (fun a row => a * row.getD l 0) z m = List.zipWith (· * ·) z (m.map fun row => row.getD l 0) := by
    rw [List.zipWith_map_right]
  rw [this]
  have := dot_inner z (m.map fun row => row.getD l 0) (by simpa using h)
  unfold LinGen.dot at this
  rw [this, ← List.sum_ofFn, ← List.sum_ofFn]
  congr 1
  apply List.ext_getElem
  · simp
  · intro i h1 h2
    simp only [List.length_ofFn, List.length_map] at h1
    simp [List.getD_eq_getElem _ _ h1]

theorem row_d2 {d : Nat} {rows : List (List α)} (hr : ∀ r ∈ rows, r.length = d) {j : Nat} (hj : j < rows.length) :
    (rowAt (.d2 d rows) j).length = d := by
  simp [rowAt, Arr.row?, hj, hr _ (List.getElem_mem hj)]

theorem dotArr_scalar {n : Nat} {p : Arr α × Coef α} (h : ScalarFit n p) :
    dotArr p.1 p.2 = .ok (.d1 ((List.range n).map fun j => scalarTerm j p)) := by
  obtain ⟨a, b⟩ := p
  cases a with
  | d1 xs =>
    cases b with
    | num b =>
      simp only [dotArr]
      rw [map_range_getElem? xs n h 0]
      congr 2
      refine List.map_congr_left fun j hj => ?_
      have : j < xs.length := by rw [h]; simpa using hj
      simp [scalarTerm, rowAt, Arr.row?, this]
    | vec b => exact h.elim
    | mat c m => exact h.elim
  | d2 d rows =>
    cases b with
    | num b => exact h.elim
    | vec b =>
      obtain ⟨h1, h2, h3⟩ := h
      simp only [dotArr, h3, if_true]
      rw [map_range_getElem? rows n h1 []]
      congr 2
      refine List.map_congr_left fun j hj => ?_
      have hj' : j < rows.length := by rw [h1]; simpa using hj
      have := row_d2 h2 hj'
      unfold rowAt Arr.row? at this
      rw [dot_inner _ _ (by rw [h3]; exact this)]
      rfl
    | mat c m => exact h.elim

theorem map_range_self (z : List α) (d : Nat) (h : z.length = d) (f : α → α) : z.map f = (List.range d).map fun l => f (z.getD l 0) := by
  subst h
  apply List.ext_getElem
  · simp
  · intro i h1 h2
    simp at h1
    simp [h1]

theorem dotArr_vector {n k : Nat} {p : Arr α × Coef α} (h : VectorFit n k p) :
    dotArr p.1 p.2 = .ok (.d2 k ((List.range n).map fun j => (List.range k).map fun l => vectorTerm j l p)) := by
  obtain ⟨a, b⟩ := p
  cases a with
  | d1 xs => cases b <;> exact h.elim
  | d2 d rows =>
    cases b with
    | vec b => exact h.elim
    | num b =>
      obtain ⟨h1, h2, h3⟩ := h
      subst h3
      simp only [dotArr]
      rw [map_range_getElem? rows n h1 []]
      congr 2
      refine List.map_congr_left fun j hj => ?_
      have hj' : j < rows.length := by rw [h1]; simpa using hj
      have := row_d2 h2 hj'
      unfold rowAt Arr.row? at this
      rw [map_range_self _ d this]
      rfl
    | mat c m =>
      obtain ⟨h1, h2, h3, h4⟩ := h
      subst h4
      simp only [dotArr, h3, if_true]
      rw [map_range_getElem? rows n h1 []]
      congr 2
      refine List.map_congr_left fun j hj => ?_
      have hj' : j < rows.length := by rw [h1]; simpa using hj
      have := row_d2 h2 hj'
      unfold rowAt Arr.row? at this
      rw [rowMat_getD _ _ _ (by rw [h3]; exact this)]
      rfl

/-! ## The sums -/

theorem addArrs_d1 (n : Nat) (f g : Nat → α) :
    addArrs (.d1 ((List.range n).map f)) (.d1 ((List.range n).map g)) = .ok (.d1 ((List.range n).map fun j => f j + g j)) := by
  simp only [addArrs, List.length_map, List.length_range, if_true]
  congr 2
  apply List.ext_getElem <;> simp

theorem addArrs_d2 (n k : Nat) (f g : Nat → Nat → α) :
    addArrs (.d2 k ((List.range n).map fun j => (List.range k).map (f j))) (.d2 k ((List.range n).map fun j => (List.range k).map (g j))) =
      .ok (.d2 k ((List.range n).map fun j => (List.range k).map fun l => f j l + g j l)) := by
  simp only [addArrs, List.length_map, List.length_range, and_self, if_true]
  congr 2
  apply List.ext_getElem
  · simp
  · intro i h1 h2
    simp only [List.getElem_zipWith, List.getElem_map, List.getElem_range]
    apply List.ext_getElem <;> simp

/-- The first term and the loop. -/
def total (tm : Nat → Except PyErr (Arr α)) (m : Nat) : Except PyErr (Arr α) := do
  let t ← tm 0
  sumFrom tm (m - 1) 1 t

theorem sumFrom_d1 (tm : Nat → Except PyErr (Arr α)) (n : Nat) (t : Nat → Nat → α) (k i : Nat)
    (h : ∀ q, i ≤ q → q < i + k → tm q = .ok (.d1 ((List.range n).map (t q)))) (a : Nat → α) :
    sumFrom tm k i (.d1 ((List.range n).map a)) = .ok (.d1 ((List.range n).map fun j => a j + ((List.range' i k).map fun q => t q j).sum)) := by
  induction k generalizing i a with
  | zero => simp [sumFrom]
  | succ k ih =>
    simp only [sumFrom, h i (le_refl _) (by omega), bind, Except.bind, addArrs_d1]
    rw [ih (i + 1) (fun q h1 h2 => h q (by omega) (by omega))]
    congr 2
    refine List.map_congr_left fun j _ => ?_
    rw [List.range'_succ, List.map_cons, List.sum_cons, add_assoc]

theorem sumFrom_d2 (tm : Nat → Except PyErr (Arr α)) (n c : Nat) (t : Nat → Nat → Nat → α) (k i : Nat)
    (h : ∀ q, i ≤ q → q < i + k → tm q = .ok (.d2 c ((List.range n).map fun j => (List.range c).map (t q j)))) (a : Nat → Nat → α) :
    sumFrom tm k i (.d2 c ((List.range n).map fun j => (List.range c).map (a j))) =
      .ok (.d2 c ((List.range n).map fun j => (List.range c).map fun l => a j l + ((List.range' i k).map fun q => t q j l).sum)) := by
  induction k generalizing i a with
  | zero => simp [sumFrom]
  | succ k ih =>
    simp only [sumFrom, h i (le_refl _) (by omega), bind, Except.bind, addArrs_d2]
    rw [ih (i + 1) (fun q h1 h2 => h q (by omega) (by omega))]
    congr 2
    refine List.map_congr_left fun j _ => ?_
    refine List.map_congr_left fun l _ => ?_
    rw [List.range'_succ, List.map_cons, List.sum_cons, add_assoc]

theorem sumFrom_d1_error (tm : Nat → Except PyErr (Arr α)) (n : Nat) (t : Nat → Nat → α) (e : PyErr) (k k' i : Nat)
    (h : ∀ q, i ≤ q → q < i + k → tm q = .ok (.d1 ((List.range n).map (t q)))) (he : tm (i + k) = .error e) (hk : k < k') (a : Nat → α) :
    sumFrom tm k' i (.d1 ((List.range n).map a)) = .error e := by
  induction k generalizing i a k' with
  | zero =>
    obtain ⟨k', rfl⟩ : ∃ m, k' = m + 1 := ⟨k' - 1, by omega⟩
    simp only [sumFrom, show tm i = .error e from he, bind, Except.bind]
  | succ k ih =>
    obtain ⟨k', rfl⟩ : ∃ m, k' = m + 1 := ⟨k' - 1, by omega⟩
    simp only [sumFrom, h i (le_refl _) (by omega), bind, Except.bind, addArrs_d1]
    exact ih k' (i + 1) (fun q h1 h2 => h q (by omega) (by omega)) (by rw [← he]; congr 1; omega) (by omega) _

theorem sumFrom_d2_error (tm : Nat → Except PyErr (Arr α)) (n c : Nat) (t : Nat → Nat → Nat → α) (e : PyErr) (k k' i : Nat)
    (h : ∀ q, i ≤ q → q < i + k → tm q = .ok (.d2 c ((List.range n).map fun j => (List.range c).map (t q j)))) (he : tm (i + k) = .error e)
    (hk : k < k') (a : Nat → Nat → α) :
    sumFrom tm k' i (.d2 c ((List.range n).map fun j => (List.range c).map (a j))) = .error e := by
  induction k generalizing i a k' with
  | zero =>
    obtain ⟨k', rfl⟩ : ∃ m, k' = m + 1 := ⟨k' - 1, by omega⟩
    simp only [sumFrom, show tm i = .error e from he, bind, Except.bind]
  | succ k ih =>
    obtain ⟨k', rfl⟩ : ∃ m, k' = m + 1 := ⟨k' - 1, by omega⟩
    simp only [sumFrom, h i (le_refl _) (by omega), bind, Except.bind, addArrs_d2]
    exact ih k' (i + 1) (fun q h1 h2 => h q (by omega) (by omega)) (by rw [← he]; congr 1; omega) (by omega) _

theorem sum_getElem {γ : Type} (ps : List γ) (f : γ → α) :
    ((List.range ps.length).map fun q => ((ps[q]?).map f).getD 0).sum = (ps.map f).sum := by
  congr 1
  apply List.ext_getElem
  · simp
  · intro i h1 h2
    simp at h1
    simp [h1]

theorem range_eq_cons {m : Nat} (h : 0 < m) : List.range m = 0 :: List.range' 1 (m - 1) := by
  obtain ⟨m, rfl⟩ : ∃ k, m = k + 1 := ⟨m - 1, by omega⟩
  rw [List.range_eq_range', List.range'_succ]
  rfl

theorem total_d1 {γ : Type} (tm : Nat → Except PyErr (Arr α)) (n : Nat) (ps : List γ) (f : Nat → γ → α) (hne : ps ≠ [])
    (h : ∀ q p, ps[q]? = some p → tm q = .ok (.d1 ((List.range n).map fun j => f j p))) :
    total tm ps.length = .ok (.d1 ((List.range n).map fun j => (ps.map (f j)).sum)) := by
  have hpos : 0 < ps.length := List.length_pos_iff.mpr hne
  have h' : ∀ q, q < ps.length → tm q = .ok (.d1 ((List.range n).map fun j => ((ps[q]?).map (f j)).getD 0)) := by
    intro q hq
    rw [h q _ (List.getElem?_eq_getElem hq)]
    simp [hq]
  unfold total
  rw [h' 0 hpos]
  simp only [bind, Except.bind]
  rw [sumFrom_d1 tm n (fun q j => ((ps[q]?).map (f j)).getD 0) _ _ (fun q h1 h2 => h' q (by omega))]
  congr 2
  refine List.map_congr_left fun j _ => ?_
  rw [← sum_getElem ps (f j), range_eq_cons hpos, List.map_cons, List.sum_cons]

theorem total_d2 {γ : Type} (tm : Nat → Except PyErr (Arr α)) (n c : Nat) (ps : List γ) (f : Nat → Nat → γ → α) (hne : ps ≠ [])
    (h : ∀ q p, ps[q]? = some p → tm q = .ok (.d2 c ((List.range n).map fun j => (List.range c).map fun l => f j l p))) :
    total tm ps.length = .ok (.d2 c ((List.range n).map fun j => (List.range c).map fun l => (ps.map (f j l)).sum)) := by
  have hpos : 0 < ps.length := List.length_pos_iff.mpr hne
  have h' : ∀ q, q < ps.length → tm q = .ok (.d2 c ((List.range n).map fun j => (List.range c).map fun l => ((ps[q]?).map (f j l)).getD 0)) := by
    intro q hq
    rw [h q _ (List.getElem?_eq_getElem hq)]
    simp [hq]
  unfold total
  rw [h' 0 hpos]
  simp only [bind, Except.bind]
  rw [sumFrom_d2 tm n c (fun q j l => ((ps[q]?).map (f j l)).getD 0) _ _ (fun q h1 h2 => h' q (by omega))]
  congr 2
  refine List.map_congr_left fun j _ => ?_
  refine List.map_congr_left fun l _ => ?_
  rw [← sum_getElem ps (f j l), range_eq_cons hpos, List.map_cons, List.sum_cons]

theorem total_d1_error {γ : Type} (tm : Nat → Except PyErr (Arr α)) (n : Nat) (ps : List γ) (f : Nat → γ → α) (e : PyErr)
    (h : ∀ q p, ps[q]? = some p → tm q = .ok (.d1 ((List.range n).map fun j => f j p))) (he : tm ps.length = .error e)
    (m : Nat) (hm : ps.length < m) : total tm m = .error e := by
  have h' : ∀ q, q < ps.length → tm q = .ok (.d1 ((List.range n).map fun j => ((ps[q]?).map (f j)).getD 0)) := by
    intro q hq
    rw [h q _ (List.getElem?_eq_getElem hq)]
    simp [hq]
  unfold total
  rcases Nat.eq_zero_or_pos ps.length with h0 | hpos
  · rw [h0] at he
    simp only [he, bind, Except.bind]
  · rw [h' 0 hpos]
    simp only [bind, Except.bind]
    exact sumFrom_d1_error tm n (fun q j => ((ps[q]?).map (f j)).getD 0) e (ps.length - 1) _ 1 (fun q h1 h2 => h' q (by omega))
      (by rw [← he]; congr 1; omega) (by omega) _

/-! ## The terms -/

theorem term_pair (ps : List (Arr α × Coef α)) (rest : List (Arr α)) (extra : List (Coef α)) (q : Nat) (p : Arr α × Coef α)
    (h : ps[q]? = some p) : term (ps.map Prod.fst ++ rest) (ps.map Prod.snd ++ extra) q = dotArr p.1 p.2 := by
  have hq : q < ps.length := by
    by_contra hc; rw [List.getElem?_eq_none (by omega)] at h; simp at h
  unfold term item
  rw [List.getElem?_append_left (by simpa using hq), List.getElem?_append_left (by simpa using hq), List.getElem?_map, List.getElem?_map, h]
  rfl

theorem term_missing (ps : List (Arr α × Coef α)) (p : Arr α) (rest : List (Arr α)) :
    term (ps.map Prod.fst ++ p :: rest) (ps.map Prod.snd) ps.length = .error .indexError := by
  unfold term item
  simp [bind, Except.bind]

theorem term_next (ps : List (Arr α × Coef α)) (p : Arr α) (b : Coef α) (rest : List (Arr α)) (extra : List (Coef α)) :
    term (ps.map Prod.fst ++ p :: rest) (ps.map Prod.snd ++ b :: extra) ps.length = dotArr p b := by
  unfold term item
  simp [bind, Except.bind]

theorem scalarFit_len {n : Nat} {p : Arr α × Coef α} (h : ScalarFit n p) : p.1.len = n := by
  obtain ⟨a, b⟩ := p
  cases a <;> cases b <;> first | exact h.elim | exact h.1 | exact h

theorem vectorFit_len {n k : Nat} {p : Arr α × Coef α} (h : VectorFit n k p) : p.1.len = n := by
  obtain ⟨a, b⟩ := p
  cases a <;> cases b <;> first | exact h.elim | exact h.1

/-! ## The noise -/

theorem normals_eq (r : Noise W α) (mean cov : α) (n : Nat) (w : W) :
    normals r mean cov n w = ((List.range n).map (noiseAt r mean cov w), afterDraws r.gauss w n) := by
  unfold normals
  rw [LinGen.drawN_eq]
  simp [noiseAt, Function.comp_def]

theorem mvns_eq (r : Noise W α) (mean : List α) (cov : List (List α)) (n : Nat) (w : W) :
    mvns r mean cov n w = ((List.range n).map (nthDraw (r.mvn mean cov) w), afterDraws (r.mvn mean cov) w n) := by
  induction n generalizing w with
  | zero => rfl
  | succ n ih =>
    unfold mvns
    simp only [ih]
    rw [List.range_succ_eq_map, List.map_cons, List.map_map]
    rfl

theorem addNormals_eq (r : Noise W α) (f : Nat → α) (mean cov : α) (n : Nat) (w : W) :
    addNormals r ((List.range n).map f) mean cov n w =
      (.ok (.d1 ((List.range n).map fun j => f j + noiseAt r mean cov w j)), afterDraws r.gauss w n) := by
  unfold addNormals
  rw [normals_eq]
  simp only [addArrs_d1]

theorem addMvns_eq (r : Noise W α) (k : Nat) (f : Nat → Nat → α) (mean : List α) (cov : List (List α)) (hk : mean.length = k)
    (hm : ∀ v, (r.mvn mean cov v).1.length = mean.length) (n : Nat) (w : W) :
    addMvns r (.d2 k ((List.range n).map fun j => (List.range k).map (f j))) mean cov n w =
      (.ok (.d2 k ((List.range n).map fun j => (List.range k).map fun l => f j l + (nthDraw (r.mvn mean cov) w j).getD l 0)),
        afterDraws (r.mvn mean cov) w n) := by
  unfold addMvns
  rw [mvns_eq]
  have : (List.range n).map (nthDraw (r.mvn mean cov) w) =
      (List.range n).map fun j => (List.range k).map fun l => (nthDraw (r.mvn mean cov) w j).getD l 0 := by
    refine List.map_congr_left fun j _ => ?_
    have := map_range_self (nthDraw (r.mvn mean cov) w j) k (by rw [← hk]; exact hm _) id
    simpa using this
  simp only [this, hk, addArrs_d2]

end Cpds
end Verif
