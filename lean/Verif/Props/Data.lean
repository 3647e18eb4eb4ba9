import Verif.Lemmas.Data2
import Mathlib.Algebra.Order.Ring.Rat

/-!
# C01 – C09: `ExpData` and the data transformers
-/

namespace Verif
namespace ExpData
variable {β : Type}

/-- A small concrete dataset used in the examples: 5 units, 2 features, exposure and response. -/
def demo : ExpData Int :=
  new (some (.d2 2 [[1, 2], [3, 4], [5, 6], [7, 8], [9, 10]])) (some [0, 1, 0, 1, 1]) (some [5, 6, 7, 8, 9])

/-- 1-D covariates, no exposure. -/
def demo1 : ExpData Int := new (some (.d1 [4, 5, 6])) none (some [1, 2, 3])

theorem demo_wf : demo.WF := by
  refine ⟨⟨_, rfl, ?_, rfl, rfl⟩, ?_, ?_⟩
  · show ∀ r ∈ ([[1, 2], [3, 4], [5, 6], [7, 8], [9, 10]] : List (List Int)), r.length = 2
    decide +kernel
  · intro e h; simp only [demo, new, Option.some.injEq] at h; subst h; rfl
  · intro e h; simp only [demo, new, Option.some.injEq] at h; subst h; rfl

theorem demo1_wf : demo1.WF := by
  refine ⟨⟨_, rfl, trivial, rfl, rfl⟩, ?_, ?_⟩
  · intro e h; simp [demo1, new] at h
  · intro e h; simp only [demo1, new, Option.some.injEq] at h; subst h; rfl

/-! ## C01 -/

/-- **C01** `k_fold(k)` returns `k` datasets; the index lists selecting them from the original are
sorted (original order kept) and together list every unit exactly once. -/
theorem C01_kFold_partition (d : ExpData β) (hd : d.WF) (k : Nat) (hk : 1 ≤ k)
    (σ : Equiv.Perm (Fin d.nUnits)) :
    ∃ folds, d.kFold k σ = .ok folds ∧ folds.length = k ∧
      ∃ idx : List (List Nat), idx.length = k ∧ idx.flatten.Perm (List.range d.nUnits) ∧
        (∀ is ∈ idx, is.Pairwise (· < ·)) ∧
        ∀ (i : Nat) f is, folds[i]? = some f → idx[i]? = some is → IsSelection d f is := by
  refine ⟨_, kFold_eq d hd k hk σ, by simp,
    (List.range k).map (fun i => (List.range d.nUnits).filter (fun u => labelAt d.nUnits k σ u == i)),
    by simp, ?_, ?_, ?_⟩
  · refine (flatten_filter_perm _ _ _).trans ?_
    rw [List.filter_eq_self.mpr]
    intro u _
    simpa using labelAt_lt hk σ u
  · intro is his
    simp only [List.mem_map] at his
    obtain ⟨i, _, rfl⟩ := his
    exact List.Pairwise.sublist List.filter_sublist List.pairwise_lt_range
  · intro i f is hf his
    simp only [List.getElem?_map, Option.map_eq_some_iff] at hf his
    obtain ⟨i', h1, rfl⟩ := hf
    obtain ⟨i'', h2, rfl⟩ := his
    rw [h1] at h2
    obtain rfl := Option.some.inj h2
    exact pick_isSelection d hd _ (fun i hi => by simpa using List.mem_of_mem_filter hi)

example : demo.WF ∧ 1 ≤ 2 ∧ ∃ folds, demo.kFold 2 (Equiv.swap (⟨0, by decide⟩ : Fin 5) ⟨1, by decide⟩) = .ok folds ∧
    folds.map (·.exp) = [some [1, 0, 1], some [0, 1]] :=
  ⟨demo_wf, by omega, _, rfl, by decide +kernel⟩

/-! ## C02 -/

/-- **C02** sizes of the folds. -/
theorem C02_kFold_sizes (d : ExpData β) (hd : d.WF) (k : Nat) (hk : 1 ≤ k)
    (σ : Equiv.Perm (Fin d.nUnits)) :
    ∃ folds, d.kFold k σ = .ok folds ∧ folds.length = k ∧
      ∀ i f, folds[i]? = some f → f.nUnits = d.nUnits / k + if i < d.nUnits % k then 1 else 0 := by
  refine ⟨_, kFold_eq d hd k hk σ, by simp, ?_⟩
  intro i f hf
  simp only [List.getElem?_map, Option.map_eq_some_iff] at hf
  obtain ⟨i', h1, rfl⟩ := hf
  have hik : i < k := by
    by_contra h
    rw [List.getElem?_eq_none (by simpa using h)] at h1
    simp at h1
  rw [List.getElem?_range hik] at h1
  obtain rfl := Option.some.inj h1
  rw [(pick_isSelection d hd _ (fun i hi => by simpa using List.mem_of_mem_filter hi)).size]
  exact length_filter_label _ _ _ hk hik σ

/-- **C02** the two folds of any pair differ by at most one unit and the sizes sum to `n`. -/
theorem C02_kFold_balanced (d : ExpData β) (hd : d.WF) (k : Nat) (hk : 1 ≤ k)
    (σ : Equiv.Perm (Fin d.nUnits)) :
    ∃ folds, d.kFold k σ = .ok folds ∧ (folds.map (·.nUnits)).sum = d.nUnits ∧
      ∀ f ∈ folds, ∀ g ∈ folds, f.nUnits ≤ g.nUnits + 1 := by
  obtain ⟨folds, h1, h2, idx, h3, h4, h5, h6⟩ := C01_kFold_partition d hd k hk σ
  obtain ⟨folds', h1', _, h7⟩ := C02_kFold_sizes d hd k hk σ
  rw [h1] at h1'
  obtain rfl := Except.ok.inj h1'
  refine ⟨folds, h1, ?_, ?_⟩
  · have : folds.map (·.nUnits) = idx.map List.length := by
      apply List.ext_getElem
      · simp [h2, h3]
      · intro i ha hb
        simp only [List.length_map] at ha hb
        simp only [List.getElem_map]
        exact (h6 i _ _ (List.getElem?_eq_getElem ha) (List.getElem?_eq_getElem hb)).size
    rw [this, ← List.length_flatten, h4.length_eq, List.length_range]
  · intro f hf g hg
    obtain ⟨i, hi⟩ := List.mem_iff_getElem?.mp hf
    obtain ⟨j, hj⟩ := List.mem_iff_getElem?.mp hg
    rw [h7 i f hi, h7 j g hj]
    split <;> split <;> omega

/-- **C02** `k_fold(1)` returns the data unchanged. -/
theorem C02_kFold_one (d : ExpData β) (hd : d.WF) (σ : Equiv.Perm (Fin d.nUnits)) :
    d.kFold 1 σ = .ok [d] := by
  have h := kFold_eq d hd 1 (le_refl 1) σ
  have : (List.range d.nUnits).filter (fun u => labelAt d.nUnits 1 σ u == 0) = List.range d.nUnits := by
    rw [List.filter_eq_self]
    intro u _
    have := labelAt_lt (le_refl 1) σ u
    simpa using this
  simp only [List.range_one, List.map_cons, List.map_nil, this, pick_all d hd] at h
  exact h

example : demo1.WF ∧ ∃ folds, demo1.kFold 2 (Equiv.refl _) = .ok folds ∧ folds.map (·.nUnits) = [2, 1] :=
  ⟨demo1_wf, _, rfl, by decide +kernel⟩

/-! ## C03 -/

/-- **C03** `k_fold` raises exactly when `k < 1`, and then a `ValueError`. -/
theorem C03_kFold_validation (d : ExpData β) (hd : d.WF) (k : Int) (σ : Equiv.Perm (Fin d.nUnits)) :
    (k < 1 → d.kFold k σ = .error .valueError) ∧ (1 ≤ k → ∃ folds, d.kFold k σ = .ok folds) := by
  constructor
  · intro h; unfold kFold; rw [if_pos h]
  · intro h
    obtain ⟨n, rfl⟩ : ∃ n : Nat, k = n := ⟨k.toNat, by omega⟩
    exact ⟨_, kFold_eq d hd n (by omega) σ⟩

example : demo.kFold 0 (Equiv.refl _) = .error .valueError ∧ demo.kFold (-3) (Equiv.refl _) = .error .valueError :=
  ⟨(C03_kFold_validation _ demo_wf _ _).1 (by decide), (C03_kFold_validation _ demo_wf _ _).1 (by decide)⟩

/-! ## C04 -/

/-- **C04** `append` succeeds exactly for appendable data and then concatenates. -/
theorem C04_append_concat (d e : ExpData β) (hd : d.WF) (he : e.WF) :
    ((d.append e).1 = .ok () ↔ Appendable d e) ∧
    ((d.append e).1 = .ok () → IsConcat d e (d.append e).2) := by
  have key : Appendable d e → (d.append e).1 = .ok () ∧ IsConcat d e (d.append e).2 := by
    intro h
    obtain ⟨r, h1, h2⟩ := append_isConcat d e hd he h
    rw [h1]; exact ⟨rfl, h2⟩
  exact ⟨⟨appendable_of_ok d e hd he, fun h => (key h).1⟩, fun h => (key (appendable_of_ok d e hd he h)).2⟩

/-- **C04** the specification `IsConcat` pins the result down completely. -/
theorem C04_concat_unique (d e r r' : ExpData β) (h : IsConcat d e r) (h' : IsConcat d e r') : r = r' := by
  refine ext_units h'.wf h.wf ?_ (by rw [h.size, h'.size]) ?_
  · exact ⟨h.kind.nFeatures.trans h'.kind.nFeatures.symm, h.kind.rank.trans h'.kind.rank.symm,
      h.kind.exp.trans h'.kind.exp.symm, h.kind.rsp.trans h'.kind.rsp.symm⟩
  · intro i hi
    by_cases hl : i < d.nUnits
    · rw [h.left i hl, h'.left i hl]
    · have hj : i - d.nUnits < e.nUnits := by rw [h'.size] at hi; omega
      have := h.right _ hj
      have h2 := h'.right _ hj
      rw [show d.nUnits + (i - d.nUnits) = i by omega] at this h2
      rw [this, h2]

/-- **C04** appending chunk by chunk is the same as appending the concatenated chunks. -/
theorem C04_append_assoc (d e f de ef : ExpData β) (hd : d.WF) (he : e.WF) (hf : f.WF)
    (h1 : d.append e = (.ok (), de)) (h2 : e.append f = (.ok (), ef)) :
    ∃ r, de.append f = (.ok (), r) ∧ d.append ef = (.ok (), r) := by
  have a1 := appendable_of_ok d e hd he (by rw [h1])
  have a2 := appendable_of_ok e f he hf (by rw [h2])
  have c1 : IsConcat d e de := by have := (C04_append_concat d e hd he).2 (by rw [h1]); rwa [h1] at this
  have c2 : IsConcat e f ef := by have := (C04_append_concat e f he hf).2 (by rw [h2]); rwa [h2] at this
  have a3 : Appendable de f :=
    ⟨by rw [a2.nFeatures, a1.nFeatures, c1.kind.nFeatures], by rw [a2.rank, a1.rank, c1.kind.rank],
      fun h => a2.exp (a1.exp (c1.kind.exp ▸ h)), fun h => a2.rsp (a1.rsp (c1.kind.rsp ▸ h))⟩
  have a4 : Appendable d ef :=
    ⟨by rw [c2.kind.nFeatures, a1.nFeatures], by rw [c2.kind.rank, a1.rank],
      fun h => c2.kind.exp ▸ a1.exp h, fun h => c2.kind.rsp ▸ a1.rsp h⟩
  obtain ⟨r, r1, r2⟩ := append_isConcat de f c1.wf hf a3
  obtain ⟨q, q1, q2⟩ := append_isConcat d ef hd c2.wf a4
  refine ⟨r, r1, ?_⟩
  rw [q1]
  congr 1
  refine ext_units r2.wf q2.wf ?_ ?_ ?_
  · exact ⟨by rw [q2.kind.nFeatures, r2.kind.nFeatures, c1.kind.nFeatures],
      by rw [q2.kind.rank, r2.kind.rank, c1.kind.rank],
      by rw [q2.kind.exp, r2.kind.exp, c1.kind.exp], by rw [q2.kind.rsp, r2.kind.rsp, c1.kind.rsp]⟩
  · rw [q2.size, r2.size, c1.size, c2.size]; omega
  · intro i hi
    rw [r2.size, c1.size] at hi
    have hre : de.exp.isSome = d.exp.isSome := c1.kind.exp
    have hrr : de.rsp.isSome = d.rsp.isSome := c1.kind.rsp
    by_cases h1 : i < d.nUnits
    · rw [q2.left i h1, r2.left i (by rw [c1.size]; omega), c1.left i h1]
    · by_cases h2 : i < d.nUnits + e.nUnits
      · rw [r2.left i (by rw [c1.size]; omega)]
        have e1 := c1.right (i - d.nUnits) (by omega)
        have e2 := q2.right (i - d.nUnits) (by rw [c2.size]; omega)
        have e3 := c2.left (i - d.nUnits) (by omega)
        rw [show d.nUnits + (i - d.nUnits) = i by omega] at e1 e2
        rw [e1, e2, e3]
      · have e1 := r2.right (i - d.nUnits - e.nUnits) (by omega)
        have e2 := q2.right (i - d.nUnits) (by rw [c2.size]; omega)
        have e3 := c2.right (i - d.nUnits - e.nUnits) (by omega)
        rw [show d.nUnits + (i - d.nUnits) = i by omega] at e2
        rw [c1.size, show d.nUnits + e.nUnits + (i - d.nUnits - e.nUnits) = i by omega] at e1
        rw [show e.nUnits + (i - d.nUnits - e.nUnits) = i - d.nUnits by omega] at e3
        rw [e1, e2, e3]
        simp only [restrictUnit, hre, hrr]
        cases hE : d.exp <;> cases hR : d.rsp <;>
          simp_all [a1.exp, a1.rsp]

example : demo.append demo = (.ok (), new
    (some (.d2 2 [[1, 2], [3, 4], [5, 6], [7, 8], [9, 10], [1, 2], [3, 4], [5, 6], [7, 8], [9, 10]]))
    (some [0, 1, 0, 1, 1, 0, 1, 0, 1, 1]) (some [5, 6, 7, 8, 9, 5, 6, 7, 8, 9])) := by decide +kernel

/-! ## C05 -/

/-- **C05 is violated**: there are well-formed datasets for which `append` raises *after* having
extended the covariates; the object is left with more covariate rows than exposures, responses and
`len`. -/
theorem C05_append_atomic_violated :
    ∃ d e : ExpData Int, d.WF ∧ e.WF ∧ (d.append e).1 = .error .valueError ∧
      (d.append e).2 ≠ d ∧ ¬ (d.append e).2.WF := by
  refine ⟨demo, new (some (.d2 2 [[0, 0]])) none (some [1]), demo_wf, ?_, by decide +kernel, by decide +kernel, ?_⟩
  · refine ⟨⟨_, rfl, by intro r hr; simp only [List.mem_singleton] at hr; subst hr; rfl, rfl, rfl⟩, ?_, ?_⟩
    · intro e h; simp [new] at h
    · intro e h; simp only [new, Option.some.injEq] at h; subst h; rfl
  · rintro ⟨⟨a, ha, _, hn, _⟩, _, _⟩
    have h1 : (demo.append (new (some (.d2 2 [[0, 0]])) none (some [1]))).2.cov =
      some (.d2 2 [[1, 2], [3, 4], [5, 6], [7, 8], [9, 10], [0, 0]]) := by decide +kernel
    have h2 : (demo.append (new (some (.d2 2 [[0, 0]])) none (some [1]))).2.nUnits = 5 := by decide +kernel
    rw [h1] at ha
    obtain rfl := Option.some.inj ha
    rw [h2] at hn
    simp [Arr.len] at hn

/-- **C05 (partial)**: a failing `append` leaves the object unchanged whenever the new data carries all
the fields the object carries (failures due to feature count or rank).  Missing: failures caused by an
absent exposure or response, for which the claim is false (`C05_append_atomic_violated`). -/
theorem C05_append_atomic_partial (d e : ExpData β)
    (hexp : d.exp.isSome → e.exp.isSome) (hrsp : d.rsp.isSome → e.rsp.isSome) (err : PyErr)
    (h : (d.append e).1 = .error err) : (d.append e).2 = d := by
  unfold append at h ⊢
  split
  · rfl
  · rename_i hnf
    rw [if_neg hnf] at h
    cases hc : catCov d.cov e.cov with
    | error _ => rfl
    | ok c =>
      rw [hc] at h
      cases hE : d.exp <;> cases hE' : e.exp <;> cases hR : d.rsp <;> cases hR' : e.rsp <;> simp_all

example : ∃ e : ExpData Int, e.exp.isSome ∧ e.rsp.isSome ∧ (demo.append e).1 = .error .valueError :=
  ⟨new (some (.d2 3 [[0, 0, 0]])) (some [1]) (some [1]), rfl, rfl, by decide +kernel⟩

/-! ## C06 -/

/-- **C06** `subsample` splits into two aligned parts, original order kept. -/
theorem C06_subsample_partition {α : Type} [Field α] [LinearOrder α] (d : ExpData β) (hd : d.WF) (p : Fl α)
    (mask : Fin d.nUnits → Bool) (hp : (Fl.fin 0).le p = true ∧ p.le (Fl.fin 1) = true) :
    ∃ a b, d.subsample p mask = .ok (a, b) ∧
      ∃ is js : List Nat, IsSelection d a is ∧ IsSelection d b js ∧
        is.Pairwise (· < ·) ∧ js.Pairwise (· < ·) ∧ (is ++ js).Perm (List.range d.nUnits) ∧
        ∀ i : Fin d.nUnits, mask i = true ↔ i.val ∈ is := by
  have hm : (List.ofFn mask).length = d.nUnits := by simp
  have hm' : ((List.ofFn mask).map (!·)).length = d.nUnits := by simp
  refine ⟨_, _, ?_, maskIdx (List.ofFn mask), maskIdx ((List.ofFn mask).map (!·)),
    pick_isSelection d hd _ fun i hi => hm ▸ mem_maskIdx_lt hi,
    pick_isSelection d hd _ fun i hi => hm' ▸ mem_maskIdx_lt hi, maskIdx_sorted _, maskIdx_sorted _, ?_, ?_⟩
  · unfold subsample
    simp only [hp.1, hp.2, Bool.and_self, Bool.not_true, Bool.false_eq_true, if_false]
    rw [select_eq_pick d hd _ hm, select_eq_pick d hd _ hm']
    rfl
  · let f : Nat → Bool := fun u => if h : u < d.nUnits then mask ⟨u, h⟩ else false
    have hl : List.ofFn mask = (List.range d.nUnits).map f := by
      apply List.ext_getElem
      · simp
      · intro i h1 h2
        simp at h1
        simp [f, h1]
    have h1 : maskIdx (List.ofFn mask) = (List.range d.nUnits).filter f := by
      unfold maskIdx; rw [hm, hl, filterMask_eq_filter]
    have h2 : maskIdx ((List.ofFn mask).map (!·)) = (List.range d.nUnits).filter (fun u => !f u) := by
      unfold maskIdx; rw [hm', hl, List.map_map]
      exact filterMask_eq_filter (fun u => !f u) _
    rw [h1, h2]
    exact List.filter_append_perm f _
  · intro i
    let f : Nat → Bool := fun u => if h : u < d.nUnits then mask ⟨u, h⟩ else false
    have hl : List.ofFn mask = (List.range d.nUnits).map f := by
      apply List.ext_getElem
      · simp
      · intro i h1 h2
        simp at h1
        simp [f, h1]
    have h1 : maskIdx (List.ofFn mask) = (List.range d.nUnits).filter f := by
      unfold maskIdx; rw [hm, hl, filterMask_eq_filter]
    rw [h1]
    simp [f]

/-- **C06** `subsample` raises exactly for a probability outside `[0,1]` (NaN included). -/
theorem C06_subsample_validation {α : Type} [Field α] [LinearOrder α] (d : ExpData β) (hd : d.WF) (p : Fl α)
    (mask : Fin d.nUnits → Bool) :
    (d.subsample p mask = .error .valueError ↔ ∀ q, p = Fl.fin q → ¬ (0 ≤ q ∧ q ≤ 1)) := by
  constructor
  · intro h q hq hq01
    subst hq
    have : (Fl.fin 0).le (Fl.fin q) = true ∧ (Fl.fin q).le (Fl.fin 1) = true := by
      simp only [Fl.le, Fl.lt, Fl.eq, Bool.or_eq_true, decide_eq_true_eq]
      exact ⟨lt_or_eq_of_le hq01.1, lt_or_eq_of_le hq01.2⟩
    obtain ⟨a, b, hab, _⟩ := C06_subsample_partition d hd (Fl.fin q) mask this
    rw [hab] at h
    simp at h
  · intro h
    unfold subsample
    rw [if_pos]
    cases p with
    | nan => rfl
    | ninf => rfl
    | pinf => rfl
    | fin q =>
      have := h q rfl
      simp only [Fl.le, Fl.lt, Fl.eq, Bool.not_eq_true', Bool.and_eq_false_iff, Bool.or_eq_false_iff, decide_eq_false_iff_not]
      by_contra hc
      apply this
      simp only [not_or, not_and, not_not] at hc
      constructor
      · rcases lt_trichotomy (0 : α) q with h | h | h
        · exact h.le
        · exact h.le
        · exact absurd (hc.1 (not_lt.mpr h.le)) (ne_of_gt h)
      · rcases lt_trichotomy q (1 : α) with h | h | h
        · exact h.le
        · exact h.le
        · exact absurd (hc.2 (not_lt.mpr h.le)) (ne_of_gt h)

example : demo.subsample (Fl.fin (1/2 : ℚ)) (fun i => i.val % 2 == 0) = .ok
    (new (some (.d2 2 [[1, 2], [5, 6], [9, 10]])) (some [0, 0, 1]) (some [5, 7, 9]),
     new (some (.d2 2 [[3, 4], [7, 8]])) (some [1, 1]) (some [6, 8])) := by decide +kernel

example : demo.subsample (Fl.nan : Fl ℚ) (fun _ => true) = .error .valueError := by decide +kernel

/-! ## C07 -/

/-- **C07** `d[s:e]` selects positions `min s n, …, min e n - 1`; slices past the end are empty, never an
error. -/
theorem C07_slice_selects (d : ExpData β) (hd : d.WF) (s e : Nat) :
    ∃ f, d.slice s e = .ok f ∧ f.nUnits = min e d.nUnits - min s d.nUnits ∧
      IsSelection d f (List.range' (min s d.nUnits) (min e d.nUnits - min s d.nUnits)) := by
  have h := pick_isSelection d hd (sliceIdx d.nUnits s e) (fun i hi => mem_sliceIdx_lt hi)
  refine ⟨_, slice_eq_pick d hd s e, ?_, ?_⟩
  · rw [h.size, sliceIdx_eq_range', List.length_range']
  · rwa [← sliceIdx_eq_range']

/-- **C07** appending the next batch `d[s:e]` to the prefix `d[0:s]` gives the prefix `d[0:e]`. -/
theorem C07_slices_tile (d : ExpData β) (hd : d.WF) (s e : Nat) (hse : s ≤ e) :
    ∃ p q r, d.slice 0 s = .ok p ∧ d.slice s e = .ok q ∧ d.slice 0 e = .ok r ∧
      p.append q = (.ok (), r) := by
  refine ⟨_, _, _, slice_eq_pick d hd 0 s, slice_eq_pick d hd s e, slice_eq_pick d hd 0 e, ?_⟩
  rw [pick_congr_append]
  obtain ⟨⟨a, ha, _⟩, _⟩ := hd
  rw [ha]
  simp only [sliceIdx_eq_range']
  congr 2
  rw [show min s d.nUnits = min 0 d.nUnits + 1 * (min s d.nUnits - min 0 d.nUnits) by omega]
  rw [show min 0 d.nUnits + 1 * (min s d.nUnits - min 0 d.nUnits) - min 0 d.nUnits = min s d.nUnits - min 0 d.nUnits by omega]
  rw [List.range'_append]
  congr 1
  omega

/-- **C07** once the end is reached the prefix is the whole dataset. -/
theorem C07_slice_all (d : ExpData β) (hd : d.WF) (e : Nat) (he : d.nUnits ≤ e) : d.slice 0 e = .ok d := by
  rw [slice_eq_pick d hd, sliceIdx_eq_range']
  rw [show min e d.nUnits - min 0 d.nUnits = d.nUnits by omega, show min 0 d.nUnits = 0 by omega,
    ← List.range_eq_range', pick_all d hd]

/-- Reading consecutive batches of `u` units from the start and appending them one after the other. -/
def readBatches (d : ExpData β) (u : Nat) : Nat → Except PyErr (ExpData β)
  | 0 => d.slice 0 0
  | k + 1 => do
    let p ← readBatches d u k
    let q ← d.slice (k * u) ((k + 1) * u)
    match p.append q with
    | (.ok (), r) => return r
    | (.error e, _) => throw e

/-- **C07** reading `k` consecutive batches yields the prefix of `k * u` units; with `k * u ≥ n` the whole
dataset, for every batch size. -/
theorem C07_batches_tile (d : ExpData β) (hd : d.WF) (u k : Nat) :
    readBatches d u k = d.slice 0 (k * u) ∧ (d.nUnits ≤ k * u → readBatches d u k = .ok d) := by
  have h : readBatches d u k = d.slice 0 (k * u) := by
    induction k with
    | zero => simp [readBatches]
    | succ k ih =>
      obtain ⟨p, q, r, hp, hq, hr, happ⟩ := C07_slices_tile d hd (k * u) ((k + 1) * u) (Nat.mul_le_mul_right _ (by omega))
      unfold readBatches
      rw [ih, hp, hq, hr]
      simp [bind, Except.bind, happ, pure, Except.pure]
  exact ⟨h, fun hn => h.trans (C07_slice_all d hd _ hn)⟩

example : readBatches demo 2 2 = demo.slice 0 4 ∧ demo.slice 4 6 = .ok (new (some (.d2 2 [[9, 10]])) (some [1]) (some [9]))
    ∧ demo.slice 10 12 = .ok (new (some (.d2 2 [])) (some []) (some [])) := by decide +kernel

/-! ## C08 -/

/-- **C08 (partial)** for 2-D covariates `get_coordinate_mask_fn(idx)` keeps units, exposure and response
and maps every row to the listed columns in the listed order; an out-of-range column is an `IndexError`.
Missing: 1-D covariates, for which the claim is false (`C08_coordMask_oneDim_violated`). -/
theorem C08_coordMask_partial (idx : List Int) (d : ExpData β) (hd : d.WF) (h2 : d.cov.map Arr.isD1 = some false) :
    ((∃ i ∈ idx, column d.nFeatures i = none) → coordMask idx d = .error .indexError) ∧
    ((∀ i ∈ idx, column d.nFeatures i ≠ none) → ∃ f, coordMask idx d = .ok f ∧ f.WF ∧
      f.nUnits = d.nUnits ∧ f.nFeatures = idx.length ∧ f.exp = d.exp ∧ f.rsp = d.rsp ∧
      ∀ u, u < d.nUnits → ∃ r r', d.cov.bind (·.row? u) = some r ∧ f.cov.bind (·.row? u) = some r' ∧
        r'.length = idx.length ∧
        ∀ (j : Nat) i (k : Nat), idx[j]? = some i → column d.nFeatures i = some k → k < r.length ∧ r'[j]? = r[k]?) := by
  obtain ⟨⟨a, ha, hwf, hn, hf⟩, he, hr⟩ := hd
  cases a with
  | d1 xs => rw [ha] at h2; simp [Arr.isD1] at h2
  | d2 c rows =>
    have hfc : d.nFeatures = c := hf
    rw [hfc]
    have heq := coordMask_eq idx d c rows ha
    constructor
    · rintro ⟨i, hi, hci⟩
      rw [heq, if_neg]
      intro h
      have := h i hi
      simp [hci] at this
    · intro h
      have h' : ∀ i ∈ idx, (column c i).isSome := fun i hi => Option.isSome_iff_ne_none.mpr (h i hi)
      rw [if_pos h'] at heq
      have hlt : ∀ r ∈ rows, ∀ k ∈ idx.filterMap (column c), k < r.length := by
        intro r hr k hk
        rw [hwf r hr]
        simp only [List.mem_filterMap] at hk
        obtain ⟨i, _, hi⟩ := hk
        exact column_lt hi
      have hrl : ∀ r ∈ rows, (gather (idx.filterMap (column c)) r).length = idx.length := by
        intro r hr
        rw [gather_length _ _ (hlt r hr), filterMap_column_length c idx h']
      have hnn : d.nUnits = rows.length := hn
      refine ⟨_, heq, ⟨⟨_, rfl, ?_, rfl, rfl⟩, ?_, ?_⟩, ?_, rfl, rfl, rfl, ?_⟩
      · intro r hr
        simp only [List.mem_map] at hr
        obtain ⟨r0, hr0, rfl⟩ := hr
        exact hrl r0 hr0
      · intro e hE
        simp only [new, Arr.len, List.length_map]
        rw [he e hE, hnn]
      · intro e hE
        simp only [new, Arr.len, List.length_map]
        rw [hr e hE, hnn]
      · simp [new, Arr.len, hnn]
      · intro u hu
        rw [hnn] at hu
        have hmem : rows[u] ∈ rows := List.getElem_mem hu
        refine ⟨rows[u], gather (idx.filterMap (column c)) rows[u], ?_, ?_, hrl _ hmem, ?_⟩
        · simp [ha, Arr.row?, hu]
        · simp [new, Arr.row?, hu]
        · intro j i k hj hk
          refine ⟨?_, ?_⟩
          · rw [hwf _ hmem]; exact column_lt hk
          · rw [gather_getElem? _ _ (hlt _ hmem), filterMap_column_getElem? c idx h', hj]
            simp [hk]

/-- **C08** removing column `i` (negative indices allowed) is selecting all other columns in order;
out-of-range raises `IndexError`. -/
theorem C08_removeCoord_eq_mask (i : Int) (d : ExpData β) (hd : d.WF) (h2 : d.cov.map Arr.isD1 = some false) :
    (column d.nFeatures i = none → removeCoord i d = .error .indexError) ∧
    (∀ k, column d.nFeatures i = some k →
      removeCoord i d = coordMask (((List.range d.nFeatures).filter (· ≠ k)).map Int.ofNat) d) := by
  obtain ⟨⟨a, ha, hwf, hn, hf⟩, he, hr⟩ := hd
  cases a with
  | d1 xs => rw [ha] at h2; simp [Arr.isD1] at h2
  | d2 c rows =>
    have hfc : d.nFeatures = c := hf
    rw [hfc]
    constructor
    · intro h
      unfold removeCoord
      rw [ha]
      simp only [pyIndex_eq_column, h]
      rfl
    · intro k hk
      have hkc := column_lt hk
      have hcol : ∀ x : Nat, x < c → column c (Int.ofNat x) = some x := by
        intro x hx
        simp [column, hx]
      have hfe : (List.range c).filter (· ≠ k) = (List.range c).eraseIdx k := by
        have h1 : (List.range c).eraseIdx k = (List.range c).erase k := by
          rw [List.erase_eq_eraseIdx_of_idxOf]
          have := List.nodup_range (n := c) |>.idxOf_getElem k (by simpa using hkc)
          simpa using this
        rw [h1, List.Nodup.erase_eq_filter List.nodup_range]
        congr 1
        funext x
        simp [bne]
        rfl
      rw [coordMask_eq _ d c rows ha, if_pos]
      · unfold removeCoord
        rw [ha]
        simp only [pyIndex_eq_column, hk]
        simp only [bind, Except.bind, pure, Except.pure]
        congr 3
        rw [List.length_map]
        have hfm : (((List.range c).filter (· ≠ k)).map Int.ofNat).filterMap (column c) = (List.range c).filter (· ≠ k) := by
          rw [List.filterMap_map]
          have : ∀ l : List Nat, (∀ x ∈ l, x < c) → l.filterMap (column c ∘ Int.ofNat) = l := by
            intro l hl
            induction l with
            | nil => rfl
            | cons x l ih =>
              rw [List.filterMap_cons]
              simp only [Function.comp]
              rw [hcol x (hl x (by simp))]
              simp only
              congr 1
              exact ih (fun y hy => hl y (by simp [hy]))
          apply this
          intro x hx
          simpa using List.mem_of_mem_filter hx
        rw [hfm, hfe]
        congr 1
        · rw [List.length_eraseIdx]; simp [hkc]
        · apply List.map_congr_left
          intro r hr
          rw [← hwf r hr, gather_erase]
      · intro x hx
        simp only [List.mem_map] at hx
        obtain ⟨y, hy, rfl⟩ := hx
        rw [hcol y (by simpa using List.mem_of_mem_filter hy)]
        rfl

/-- **C08 is violated for 1-D covariates**: `d.cov[..., idx]` then selects *units*, so a well-formed
dataset of three units becomes an ill-formed dataset of one covariate with three responses. -/
theorem C08_coordMask_oneDim_violated :
    ∃ d f : ExpData Int, d.WF ∧ coordMask [0] d = .ok f ∧ f.nUnits ≠ d.nUnits ∧ ¬ f.WF := by
  refine ⟨demo1, _, demo1_wf, rfl, by decide +kernel, ?_⟩
  rintro ⟨_, _, h⟩
  have := h [1, 2, 3] rfl
  simp [new, Arr.len, gather, demo1] at this

example : demo.cov.map Arr.isD1 = some false ∧
    coordMask [1, -2] demo = .ok (new (some (.d2 2 [[2, 1], [4, 3], [6, 5], [8, 7], [10, 9]])) demo.exp demo.rsp) ∧
    coordMask [2] demo = .error .indexError ∧
    removeCoord (-1) demo = .ok (new (some (.d2 1 [[1], [3], [5], [7], [9]])) demo.exp demo.rsp) := by decide +kernel

/-! ## C09 -/

/-- **C09 (partial)** selecting columns commutes with slicing, for 2-D covariates.  Missing: 1-D
covariates, where the mask function indexes units (`C09_coordMask_oneDim_violated`). -/
theorem C09_coordMask_slice_partial (idx : List Int) (d : ExpData β) (h2 : d.cov.map Arr.isD1 = some false) (s e : Nat) :
    (do let f ← coordMask idx d; f.slice s e) = (do let f ← d.slice s e; coordMask idx f) := by
  cases ha : d.cov with
  | none => simp [ha] at h2
  | some a =>
    cases a with
    | d1 xs => rw [ha] at h2; simp [Arr.isD1] at h2
    | d2 c rows =>
      rw [coordMask_eq idx d c rows ha]
      simp only [slice, ha, Arr.onRows]
      simp only [bind, Except.bind]
      rw [coordMask_eq idx _ c (sliceList s e rows) rfl]
      by_cases h : ∀ i ∈ idx, (column c i).isSome = true
      · rw [if_pos h, if_pos h]; simp [new, sliceList_map]
      · rw [if_neg h, if_neg h]

/-- **C09 (partial)** selecting columns commutes with appending, for 2-D covariates.  Missing: 1-D. -/
theorem C09_coordMask_append_partial (idx : List Int) (d e : ExpData β) (hd : d.WF) (he : e.WF)
    (h2 : d.cov.map Arr.isD1 = some false) (h : Appendable d e) (d' e' : ExpData β)
    (hd' : coordMask idx d = .ok d') (he' : coordMask idx e = .ok e') :
    ∃ r r', d.append e = (.ok (), r) ∧ d'.append e' = (.ok (), r') ∧ coordMask idx r = .ok r' := by
  obtain ⟨⟨a, ha, hwfa, hna, hfa⟩, hea, hra⟩ := hd
  obtain ⟨⟨b, hb, hwfb, hnb, hfb⟩, heb, hrb⟩ := he
  have hrank := h.rank
  have hnf := h.nFeatures
  have hse := h.exp
  have hsr := h.rsp
  rw [ha] at h2 hrank
  rw [hb] at hrank
  cases a with
  | d1 xs => simp [Arr.isD1] at h2
  | d2 c xs =>
    cases b with
    | d1 _ => simp [Arr.isD1] at hrank
    | d2 c' ys =>
      rw [hfa, hfb] at hnf
      simp only [Arr.nFeatures] at hnf
      subst hnf
      rw [coordMask_eq idx d _ xs ha] at hd'
      rw [coordMask_eq idx e _ ys hb] at he'
      by_cases hall : ∀ i ∈ idx, (column c' i).isSome
      · rw [if_pos hall] at hd' he'
        obtain rfl := Except.ok.inj hd'
        obtain rfl := Except.ok.inj he'
        have hnf2 : e.nFeatures = d.nFeatures := h.nFeatures
        have h1 : ∃ E R, d.append e = (.ok (), { cov := some (.d2 c' (xs ++ ys)), exp := E, rsp := R, nUnits := (xs ++ ys).length, nFeatures := d.nFeatures }) ∧
            (new (some (.d2 idx.length (xs.map (gather (idx.filterMap (column c')))))) d.exp d.rsp).append
              (new (some (.d2 idx.length (ys.map (gather (idx.filterMap (column c')))))) e.exp e.rsp) =
             (.ok (), new (some (.d2 idx.length ((xs ++ ys).map (gather (idx.filterMap (column c')))))) E R) := by
          cases hE : d.exp <;> cases hE' : e.exp <;> cases hR : d.rsp <;> cases hR' : e.rsp <;>
            simp_all [append, new, catCov, Arr.concat, Arr.nFeatures, Arr.len]
        obtain ⟨E, R, g1, g2⟩ := h1
        refine ⟨_, _, g1, g2, ?_⟩
        rw [coordMask_eq idx _ c' (xs ++ ys) rfl, if_pos hall]
      · rw [if_neg hall] at hd'; simp at hd'

/-- **C09** removing a column commutes with slicing. -/
theorem C09_removeCoord_slice (i : Int) (d : ExpData β) (s e : Nat) (hcov : d.cov ≠ none) :
    (do let f ← removeCoord i d; f.slice s e) = (do let f ← d.slice s e; removeCoord i f) := by
  cases ha : d.cov with
  | none => exact absurd ha hcov
  | some a =>
    cases a with
    | d1 xs => simp [removeCoord, slice, ha, Arr.onRows, bind, Except.bind, new]
    | d2 c rows =>
      simp only [removeCoord, slice, ha, bind, Except.bind, Arr.onRows, new]
      cases pyIndex c i with
      | error e => rfl
      | ok j => simp [pure, Except.pure, sliceList_map, Arr.len]

/-- **C09** removing a column commutes with appending. -/
theorem C09_removeCoord_append (i : Int) (d e : ExpData β) (hd : d.WF) (he : e.WF)
    (h : Appendable d e) (d' e' : ExpData β)
    (hd' : removeCoord i d = .ok d') (he' : removeCoord i e = .ok e') :
    ∃ r r', d.append e = (.ok (), r) ∧ d'.append e' = (.ok (), r') ∧ removeCoord i r = .ok r' := by
  have hk1 : d.cov.map Arr.isD1 = some false := by
    unfold removeCoord at hd'
    cases ha : d.cov with
    | none => simp [ha] at hd'
    | some a => cases a with
      | d1 => simp [ha] at hd'
      | d2 => rfl
  have hk2 : e.cov.map Arr.isD1 = some false := by rw [h.rank, hk1]
  cases hc : column d.nFeatures i with
  | none => rw [(C08_removeCoord_eq_mask i d hd hk1).1 hc] at hd'; simp at hd'
  | some k =>
    rw [(C08_removeCoord_eq_mask i d hd hk1).2 k hc] at hd'
    rw [(C08_removeCoord_eq_mask i e he hk2).2 k (h.nFeatures ▸ hc), h.nFeatures] at he'
    obtain ⟨r, r', h1, h2, h3⟩ := C09_coordMask_append_partial _ d e hd he hk1 h d' e' hd' he'
    refine ⟨r, r', h1, h2, ?_⟩
    have hcat : IsConcat d e r := by
      have := (C04_append_concat d e hd he).2 (by rw [h1]); rwa [h1] at this
    rw [(C08_removeCoord_eq_mask i r hcat.wf (by rw [hcat.kind.rank, hk1])).2 k (by rw [hcat.kind.nFeatures, hc]),
      hcat.kind.nFeatures]
    exact h3

/-- **C09 is violated for 1-D covariates**: the mask function then indexes units, so transforming and
slicing do not commute. -/
theorem C09_coordMask_oneDim_violated :
    ∃ d : ExpData Int, d.WF ∧
      (do let f ← coordMask [0] d; f.slice 1 3) ≠ (do let f ← d.slice 1 3; coordMask [0] f) :=
  ⟨demo1, demo1_wf, by decide +kernel⟩

example : Appendable demo demo ∧ (do let f ← coordMask [1] demo; f.slice 1 3) =
    .ok (new (some (.d2 1 [[4], [6]])) (some [1, 0]) (some [6, 7])) :=
  ⟨⟨rfl, rfl, id, id⟩, by decide +kernel⟩

end ExpData
end Verif
