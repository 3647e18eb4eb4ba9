import Verif.Model.Nonlinear
import Mathlib.Algebra.Order.Field.Rat
import Mathlib.Tactic.FieldSimp
import Mathlib.Tactic.Linarith
import Mathlib.Tactic.Ring
import Mathlib.Tactic.Positivity

/-!
# C63 components of a random function, C64 its design points
-/

set_option linter.unusedSectionVars false
set_option linter.unusedSimpArgs false

namespace Verif
namespace Nonlinear

/-! ## C64 -/
section Grid
variable {α : Type} [Field α] [LinearOrder α] [IsStrictOrderedRing α]

theorem product_length (xs : List α) (dim : Nat) : (product xs dim).length = xs.length ^ dim := by
  induction dim with
  | zero => rfl
  | succ d ih => simp [product, List.length_flatMap, ih, Nat.pow_succ, Nat.mul_comm]

theorem mem_product (xs : List α) (dim : Nat) (p : List α) : p ∈ product xs dim ↔ p.length = dim ∧ ∀ t ∈ p, t ∈ xs := by
  induction dim generalizing p with
  | zero => simp only [product, List.mem_singleton, List.length_eq_zero_iff]; constructor
            · rintro rfl; simp
            · exact fun h => h.1
  | succ d ih =>
    simp only [product, List.mem_flatMap, List.mem_map]
    constructor
    · rintro ⟨x, hx, q, hq, rfl⟩
      obtain ⟨h1, h2⟩ := (ih q).mp hq
      exact ⟨by simp [h1], by simpa using ⟨hx, h2⟩⟩
    · rintro ⟨h1, h2⟩
      cases p with
      | nil => simp at h1
      | cons x q =>
        exact ⟨x, h2 x (by simp), q, (ih q).mpr ⟨by simpa using h1, fun t ht => h2 t (by simp [ht])⟩, rfl⟩

theorem product_nodup (xs : List α) (h : xs.Nodup) (dim : Nat) : (product xs dim).Nodup := by
  induction dim with
  | zero => simp [product]
  | succ d ih =>
    rw [product, List.nodup_flatMap]
    refine ⟨fun x _ => ih.map fun a b e => (List.cons.inj e).2, ?_⟩
    refine List.Pairwise.imp ?_ h
    intro a b hab
    simp only [Function.onFun, List.disjoint_left, List.mem_map, not_exists, not_and]
    rintro p ⟨q, -, rfl⟩ r - he
    exact hab (List.cons.inj he).1.symm

/-- **C64** The design points are the grid of the box: there are `n_points ^ dim` of them, without repetition if the
box is not degenerate; a list of numbers is one of them exactly when it has `dim` coordinates, each of the form
`min_x + (max_x - min_x) * i / (n_points - 1)` with `i < n_points`; and every coordinate lies in the box. -/
theorem C64_grid (dim n : Nat) (minX maxX : α) :
    (grid dim n minX maxX).length = n ^ dim ∧
    (minX < maxX → (grid dim n minX maxX).Nodup) ∧
    (∀ p, p ∈ grid dim n minX maxX ↔
      p.length = dim ∧ ∀ t ∈ p, ∃ i : Nat, i < n ∧ t = minX + (maxX - minX) * (i / ((n - 1 : Nat) : α))) ∧
    (minX ≤ maxX → ∀ p ∈ grid dim n minX maxX, ∀ t ∈ p, minX ≤ t ∧ t ≤ maxX) := by
  have hmem : ∀ p, p ∈ grid dim n minX maxX ↔
      p.length = dim ∧ ∀ t ∈ p, ∃ i : Nat, i < n ∧ t = minX + (maxX - minX) * (i / ((n - 1 : Nat) : α)) := by
    intro p
    simp only [grid, List.mem_map]
    constructor
    · rintro ⟨q, hq, rfl⟩
      obtain ⟨h1, h2⟩ := (mem_product _ _ _).mp hq
      refine ⟨by simp [h1], ?_⟩
      intro t ht
      obtain ⟨u, hu, rfl⟩ := List.mem_map.mp ht
      obtain ⟨i, hi, rfl⟩ := List.mem_map.mp (h2 u hu)
      exact ⟨i, List.mem_range.mp hi, by ring⟩
    · rintro ⟨h1, h2⟩
      choose! f hf using h2
      refine ⟨p.map fun t => (f t : α) / ((n - 1 : Nat) : α), (mem_product _ _ _).mpr ⟨by simp [h1], ?_⟩, ?_⟩
      · intro u hu
        obtain ⟨t, ht, rfl⟩ := List.mem_map.mp hu
        exact List.mem_map.mpr ⟨f t, List.mem_range.mpr (hf t ht).1, rfl⟩
      · rw [List.map_map]
        conv_rhs => rw [← List.map_id p]
        refine List.map_congr_left fun t ht => ?_
        simp only [Function.comp, id]
        conv_rhs => rw [(hf t ht).2]
        ring
  refine ⟨by simp [grid, product_length, linspace01], ?_, hmem, ?_⟩
  · intro hlt
    refine (product_nodup _ ?_ _).map ?_
    · refine List.Nodup.map_on ?_ List.nodup_range
      intro i hi j hj he
      rw [List.mem_range] at hi hj
      by_cases hn : n = 1
      · omega
      · have hpos : (0 : α) < ((n - 1 : Nat) : α) := Nat.cast_pos.mpr (by omega)
        have := (div_left_inj' hpos.ne').mp he
        exact_mod_cast this
    · intro a b he
      refine List.map_injective_iff.mpr ?_ he
      intro s t hst
      have h0 : maxX - minX ≠ 0 := (sub_pos.mpr hlt).ne'
      exact mul_right_cancel₀ h0 (add_right_cancel hst)
  · intro hle p hp t ht
    obtain ⟨i, hi, rfl⟩ := ((hmem p).mp hp).2 t ht
    have h0 : (0 : α) ≤ i / ((n - 1 : Nat) : α) := by positivity
    have h1 : (i : α) / ((n - 1 : Nat) : α) ≤ 1 := by
      apply div_le_one_of_le₀
      · exact Nat.cast_le.mpr (by omega)
      · exact Nat.cast_nonneg _
    have hd := sub_nonneg.mpr hle
    constructor <;> nlinarith

/-- **C64** With at least two points per axis every corner of the box is a design point. -/
theorem C64_corners (dim n : Nat) (hn : 2 ≤ n) (minX maxX : α) (p : List α) (hl : p.length = dim)
    (hc : ∀ t ∈ p, t = minX ∨ t = maxX) : p ∈ grid dim n minX maxX := by
  refine ((C64_grid dim n minX maxX).2.2.1 p).mpr ⟨hl, ?_⟩
  intro t ht
  rcases hc t ht with rfl | rfl
  · exact ⟨0, by omega, by simp⟩
  · refine ⟨n - 1, by omega, ?_⟩
    have hpos : (0 : α) < ((n - 1 : Nat) : α) := Nat.cast_pos.mpr (by omega)
    rw [div_self hpos.ne']; ring

example : grid 2 3 (-1 : ℚ) 1 = [[-1, -1], [-1, 0], [-1, 1], [0, -1], [0, 0], [0, 1], [1, -1], [1, 0], [1, 1]] := by
  decide +kernel

end Grid

/-! ## C63 -/
section Components
variable {K F W α : Type} [Field α]

theorem fitComponents_some (lib : GPLib K F α) (randint : Nat → W → Nat × W) (kernel : K) (alpha : α) (x : List (List α))
    (k s : Nat) (fns : List F) (w : W) :
    fitComponents lib randint kernel alpha x k (some s) fns w =
      (fns ++ List.replicate k (lib.fit kernel alpha x (lib.sampleY kernel alpha x s)), w) := by
  induction k generalizing fns with
  | zero => simp [fitComponents]
  | succ k ih => simp [fitComponents, ih, List.replicate_succ]

/-- The seed all components use: the one given, else the first number drawn. -/
def usedSeed (randint : Nat → W → Nat × W) (seed : Option Nat) (w : W) : Nat :=
  seed.getD (randint 10000 w).1

/-- **C63 (violated)** Whatever the number of outputs, the kernel, the box and the seed, given or not, all components
are fitted to one and the same prior sample: the random numbers are drawn at most once, and the components are equal. -/
theorem C63_same_sample_violated (lib : GPLib K F α) (randint : Nat → W → Nat × W) (dim outDim : Nat) (kernel : Option K)
    (minX maxX : α) (n : Nat) (seed : Option Nat) (alpha : α) (w : W) :
    ∃ f, (randomFns lib randint dim outDim kernel minX maxX n seed alpha w).1 = List.replicate outDim f ∧
      f = lib.fit (kernel.getD lib.defaultKernel) alpha (grid dim n minX maxX)
        (lib.sampleY (kernel.getD lib.defaultKernel) alpha (grid dim n minX maxX) (usedSeed randint seed w)) ∧
      (randomFns lib randint dim outDim kernel minX maxX n seed alpha w).2 =
        if seed = none ∧ outDim ≠ 0 then (randint 10000 w).2 else w := by
  refine ⟨_, ?_, rfl, ?_⟩
  · cases outDim with
    | zero => rfl
    | succ k =>
      cases seed with
      | none => simp [randomFns, fitComponents, fitComponents_some, usedSeed, List.replicate_succ]
      | some s => simp [randomFns, fitComponents_some, usedSeed]
  · cases outDim with
    | zero => simp [randomFns, fitComponents]
    | succ k =>
      cases seed with
      | none => simp [randomFns, fitComponents, fitComponents_some]
      | some s => simp [randomFns, fitComponents_some]

theorem hcat_foldl (a : List (List α)) (q : List α) (k : Nat) (h : a.length = q.length) :
    (List.replicate k (q.map fun t => [t])).foldl SCM.hcat a = List.zipWith (fun r t => r ++ List.replicate k t) a q := by
  induction k generalizing a with
  | zero =>
    simp only [List.replicate, List.foldl_nil, List.append_nil]
    apply List.ext_getElem
    · simp [h]
    · intro i h1 h2; simp
  | succ k ih =>
    rw [List.replicate_succ, List.foldl_cons, ih]
    · apply List.ext_getElem
      · simp [SCM.hcat]
      · intro i h1 h2
        simp [SCM.hcat, List.getElem_zipWith, List.replicate_succ]
    · simp [SCM.hcat, h]

theorem outF_replicate (lib : GPLib K F α) (k : Nat) (f : F) (x : List (List α)) :
    outF lib (List.replicate (k + 1) f) x = .ok (.d2 (k + 1) ((lib.predict f x).map fun v => List.replicate (k + 1) v)) := by
  unfold outF
  rw [List.replicate_succ, List.map_cons, List.map_replicate, SCM.columnStack, if_neg]
  · congr 1
    simp only [List.map_cons, List.map_replicate, Arr.nFeatures, SCM.asRows]
    rw [hcat_foldl _ _ _ (by simp)]
    congr 1
    · simp; omega
    · apply List.ext_getElem
      · simp
      · intro i h2 h3
        simp [List.replicate_succ]
  · simp only [List.any_eq_true, decide_eq_true_eq, not_exists, not_and, not_not]
    intro b hb
    rw [List.eq_of_mem_replicate hb]

/-- **C63 (violated)** Hence the value of the generated function at every point has `out_dim` equal coordinates: it is
a single random number repeated. -/
theorem C63_equal_outputs_violated (lib : GPLib K F α) (randint : Nat → W → Nat × W) (dim outDim : Nat) (h1 : 1 ≤ outDim)
    (kernel : Option K) (minX maxX : α) (n : Nat) (seed : Option Nat) (alpha : α) (w : W) (x : List (List α)) :
    ∃ vals : List α, outF lib (randomFns lib randint dim outDim kernel minX maxX n seed alpha w).1 x =
      .ok (.d2 outDim (vals.map fun v => List.replicate outDim v)) := by
  obtain ⟨f, hf, -⟩ := C63_same_sample_violated lib randint dim outDim kernel minX maxX n seed alpha w
  obtain ⟨k, rfl⟩ : ∃ k, outDim = k + 1 := ⟨outDim - 1, by omega⟩
  refine ⟨lib.predict f x, ?_⟩
  rw [hf]
  exact outF_replicate lib k f x

/-- **C63 (partial)** What the code does achieve: a single-output function is fitted to a sample drawn with the seed,
or with a fresh random seed when none is given.  Missing: different samples for different outputs. -/
theorem C63_single_output_partial (lib : GPLib K F α) (randint : Nat → W → Nat × W) (dim : Nat) (kernel : Option K)
    (minX maxX : α) (n : Nat) (alpha : α) (w : W) (x : List (List α)) (hrow : ∀ f, (lib.predict f x).length = x.length) :
    (∀ s, outF lib (randomFns lib randint dim 1 kernel minX maxX n (some s) alpha w).1 x = .ok (.d2 1
      ((lib.predict (lib.fit (kernel.getD lib.defaultKernel) alpha (grid dim n minX maxX)
        (lib.sampleY (kernel.getD lib.defaultKernel) alpha (grid dim n minX maxX) s)) x).map fun t => [t]))) ∧
    (randomFns lib randint dim 1 kernel minX maxX n none alpha w).1 =
      (randomFns lib randint dim 1 kernel minX maxX n (some (randint 10000 w).1) alpha w).1 ∧
    ∀ seed, ∃ rows, outF lib (randomFns lib randint dim 1 kernel minX maxX n seed alpha w).1 x = .ok (.d2 1 rows) ∧
      rows.length = x.length := by
  refine ⟨fun s => rfl, rfl, fun seed => ?_⟩
  cases seed with
  | none => exact ⟨_, rfl, by simp [SCM.asRows, hrow]⟩
  | some s => exact ⟨_, rfl, by simp [SCM.asRows, hrow]⟩

/-- A regressor that reproduces its sample at the first design point everywhere. -/
def demoGP : GPLib Unit ℚ ℚ where
  defaultKernel := ()
  sampleY := fun _ _ x s => x.map fun _ => (s : ℚ)
  fit := fun _ _ _ y => y.headD 0
  predict := fun f x => x.map fun _ => f

/-- With a generator returning 5 then 6, two outputs would have been expected to differ; both are 5. -/
example : outF demoGP (randomFns demoGP (fun _ (w : Nat) => (5 + w, w + 1)) 1 2 none (-1) 1 3 none 100 0).1 [[0], [1]] =
    .ok (.d2 2 [[5, 5], [5, 5]]) := by decide +kernel

end Components
end Nonlinear
end Verif
