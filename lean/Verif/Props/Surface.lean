import Verif.Model.Plotting
import Verif.Props.Nonlinear
import Mathlib.Algebra.Order.Ring.Rat

/-!
# Property C85: surface plots
-/

set_option linter.unusedSectionVars false

namespace Verif
namespace Plotting
open Nonlinear
variable {α : Type} [Field α]

/-- The points at which the surface is evaluated, by row and column. -/
def surfacePoint (n : Nat) (xLow xHigh yLow yHigh : α) (i j : Nat) : List α :=
  [xLow + (j : α) * ((xHigh - xLow) / ((n - 1 : Nat) : α)), yLow + (i : α) * ((yHigh - yLow) / ((n - 1 : Nat) : α))]

theorem flatten_const {γ : Type} (ys : List (List γ)) (c : Nat) (h : ∀ y ∈ ys, y.length = c) (i j : Nat) (hj : j < c) :
    ys.flatten[i * c + j]? = ys[i]?.bind (·[j]?) := by
  induction ys generalizing i with
  | nil => simp
  | cons y ys ih =>
    have hy := h y List.mem_cons_self
    cases i with
    | zero =>
      rw [Nat.zero_mul, Nat.zero_add, List.flatten_cons, List.getElem?_append_left (by omega)]
      simp
    | succ i =>
      rw [List.flatten_cons, List.getElem?_append_right (by rw [hy, Nat.succ_mul]; omega)]
      rw [show (i + 1) * c + j - y.length = i * c + j by rw [hy, Nat.succ_mul]; omega]
      rw [ih (fun y hy => h y (List.mem_cons_of_mem _ hy))]
      simp

theorem flatten_const_length {γ : Type} (ys : List (List γ)) (c : Nat) (h : ∀ y ∈ ys, y.length = c) :
    ys.flatten.length = ys.length * c := by
  induction ys with
  | nil => simp
  | cons y ys ih =>
    rw [List.flatten_cons, List.length_append, h y List.mem_cons_self, ih fun y hy => h y (List.mem_cons_of_mem _ hy),
      List.length_cons, Nat.succ_mul, Nat.add_comm]

theorem linspace_get (low high : α) (n i : Nat) (hi : i < n) :
    (linspace low high n)[i]? = some (low + (i : α) * ((high - low) / ((n - 1 : Nat) : α))) := by
  simp [linspace, hi]

/-- The rows of `np.c_[x.flatten(), y.flatten()]`. -/
theorem points_get (n : Nat) (a b c d : α) (i j : Nat) (hi : i < n) (hj : j < n) :
    (List.zipWith (fun a b => [a, b]) (meshgrid (linspace a b n) (linspace c d n)).1.flatten
      (meshgrid (linspace a b n) (linspace c d n)).2.flatten)[i * n + j]? = some (surfacePoint n a b c d i j) := by
  have hx : (linspace a b n).length = n := by simp [linspace]
  rw [List.getElem?_zipWith, flatten_const _ n (by simp [meshgrid, hx]) i j hj, flatten_const _ n (by simp [meshgrid, hx]) i j hj]
  simp only [meshgrid, List.getElem?_map, linspace_get c d n i hi, Option.map_some, Option.bind_some, linspace_get a b n j hj]
  rfl

theorem points_length (n : Nat) (a b c d : α) :
    (List.zipWith (fun a b => [a, b]) (meshgrid (linspace a b n) (linspace c d n)).1.flatten
      (meshgrid (linspace a b n) (linspace c d n)).2.flatten).length = n * n := by
  have hx : (linspace a b n).length = n := by simp [linspace]
  have hy : (linspace c d n).length = n := by simp [linspace]
  rw [List.length_zipWith, flatten_const_length _ n (by simp [meshgrid, hx]), flatten_const_length _ n (by simp [meshgrid, hx])]
  simp [meshgrid, hy]

/-- **C85** The surface drawn for a function `g` of two numbers, given as an array function that returns one number per row,
in a 1-D array or in a column: a square mesh of `n` by `n` points of the rectangle, and the height above each point of the
mesh is the value of `g` at that point. -/
theorem C85_surface (n : Nat) (f : List (List α) → Except PyErr (Arr α)) (g : List α → α)
    (hf : ∀ x, f x = .ok (.d1 (x.map g)) ∨ f x = .ok (.d2 1 (x.map fun p => [g p]))) (xLow xHigh yLow yHigh : α) :
    ∃ s, plot3d n f xLow xHigh yLow yHigh = .ok s ∧ s.x.length = n ∧ s.y.length = n ∧ s.z.length = n ∧
      (∀ r ∈ s.x, r.length = n) ∧ (∀ r ∈ s.y, r.length = n) ∧ (∀ r ∈ s.z, r.length = n) ∧
      ∀ i j, i < n → j < n → ∃ x y, surfacePoint n xLow xHigh yLow yHigh i j = [x, y] ∧
        (s.x[i]?.bind (·[j]?)) = some x ∧ (s.y[i]?.bind (·[j]?)) = some y ∧ (s.z[i]?.bind (·[j]?)) = some (g [x, y]) := by
  have hx : ∀ a b : α, (linspace a b n).length = n := by simp [linspace]
  set pts := List.zipWith (fun a b => [a, b]) (meshgrid (linspace xLow xHigh n) (linspace yLow yHigh n)).1.flatten
      (meshgrid (linspace xLow xHigh n) (linspace yLow yHigh n)).2.flatten with hpts
  have hlen : pts.length = n * n := points_length n xLow xHigh yLow yHigh
  have hent : ∃ a, f pts = .ok a ∧ entries a = pts.map g := by
    rcases hf pts with h | h
    · exact ⟨_, h, rfl⟩
    · refine ⟨_, h, ?_⟩
      simp only [entries]
      clear_value pts
      clear hlen h hpts
      induction pts with
      | nil => rfl
      | cons p ps ih => rw [List.map_cons, List.flatten_cons, ih]; rfl
  obtain ⟨a, ha, he⟩ := hent
  refine ⟨⟨(meshgrid (linspace xLow xHigh n) (linspace yLow yHigh n)).1, (meshgrid (linspace xLow xHigh n) (linspace yLow yHigh n)).2,
    (List.range n).map fun i => ((pts.map g).drop (i * n)).take n⟩, ?_, ?_, ?_, ?_, ?_, ?_, ?_, ?_⟩
  · simp only [plot3d, bind, Except.bind, ← hpts, ha, he, reshape, List.length_map, hlen, ne_eq, not_true_eq_false, if_false, pure,
      Except.pure]
  · simp [meshgrid, hx]
  · simp [meshgrid, hx]
  · simp
  · simp [meshgrid, hx]
  · simp [meshgrid, hx]
  · intro r hr
    obtain ⟨i, hi, rfl⟩ := List.mem_map.mp hr
    rw [List.mem_range] at hi
    rw [List.length_take, List.length_drop, List.length_map, hlen]
    have : (i + 1) * n ≤ n * n := Nat.mul_le_mul_right _ hi
    rw [Nat.succ_mul] at this
    omega
  · intro i j hi hj
    refine ⟨_, _, rfl, ?_, ?_, ?_⟩
    · simp only [meshgrid, List.getElem?_map, linspace_get yLow yHigh n i hi, Option.map_some, Option.bind_some, linspace_get xLow xHigh n j hj]
    · simp only [meshgrid, List.getElem?_map, linspace_get yLow yHigh n i hi, Option.map_some, Option.bind_some, linspace_get xLow xHigh n j hj]
    · simp only [List.getElem?_map, List.getElem?_range hi, Option.map_some, Option.bind_some]
      rw [List.getElem?_take_of_lt hj, List.getElem?_drop, List.getElem?_map, hpts, points_get n xLow xHigh yLow yHigh i j hi hj]
      rfl

/-- **C85** The functions made by `generate_random_nd_function` can be drawn only if they have one output: with two or more
the call of `np.reshape` raises `ValueError`. -/
theorem C85_outputs {K F W : Type} (lib : GPLib K F α) (randint : Nat → W → Nat × W) (dim outDim : Nat) (kernel : Option K)
    (minX maxX : α) (points : Nat) (seed : Option Nat) (alpha : α) (w : W) (n : Nat) (hn : 1 ≤ n)
    (hrow : ∀ f x, (lib.predict f x).length = x.length) (xLow xHigh yLow yHigh : α) :
    (outDim = 1 → ∃ s, plot3d n (outF lib (randomFns lib randint dim outDim kernel minX maxX points seed alpha w).1)
      xLow xHigh yLow yHigh = .ok s) ∧
    (outDim ≠ 1 → plot3d n (outF lib (randomFns lib randint dim outDim kernel minX maxX points seed alpha w).1)
      xLow xHigh yLow yHigh = .error .valueError) := by
  set pts := List.zipWith (fun a b => [a, b]) (meshgrid (linspace xLow xHigh n) (linspace yLow yHigh n)).1.flatten
      (meshgrid (linspace xLow xHigh n) (linspace yLow yHigh n)).2.flatten with hpts
  have hlen : pts.length = n * n := points_length n xLow xHigh yLow yHigh
  have hpos : 0 < n * n := Nat.mul_pos hn hn
  obtain ⟨f, hf, -⟩ := C63_same_sample_violated lib randint dim outDim kernel minX maxX points seed alpha w
  rw [hf]
  rcases Nat.eq_zero_or_pos outDim with rfl | h1
  · refine ⟨by simp, fun _ => ?_⟩
    simp [plot3d, outF, SCM.columnStack, bind, Except.bind]
  · have hout : ∃ a, outF lib (List.replicate outDim f) pts = .ok a ∧ (entries a).length = (n * n) * outDim := by
      obtain ⟨k, rfl⟩ : ∃ k, outDim = k + 1 := ⟨outDim - 1, by omega⟩
      refine ⟨_, outF_replicate lib k f pts, ?_⟩
      simp only [entries]
      rw [flatten_const_length _ (k + 1) (by simp), List.length_map, hrow, hlen]
    obtain ⟨a, ha, he⟩ := hout
    constructor
    · rintro rfl
      simp only [plot3d, bind, Except.bind, ← hpts, ha, reshape, he, Nat.mul_one, ne_eq, not_true_eq_false, if_false, pure, Except.pure]
      exact ⟨_, rfl⟩
    · intro hne
      have : (entries a).length ≠ n * n := by
        rw [he]
        intro hcon
        apply hne
        exact Nat.eq_of_mul_eq_mul_left hpos (by rw [hcon, Nat.mul_one])
      simp only [plot3d, bind, Except.bind, ← hpts, ha, reshape, this, ne_eq, not_false_eq_true, if_true]

/-- Running example: the surface of `x - 2 y` over `[0, 1] × [0, 2]`, with three points per side. -/
example : (match plot3d 3 (fun x => .ok (.d1 (x.map fun p => p.getD 0 0 - 2 * p.getD 1 0))) (0 : ℚ) 1 0 2 with
    | .ok s => decide (s.x = [[0, 1 / 2, 1], [0, 1 / 2, 1], [0, 1 / 2, 1]] ∧ s.y = [[0, 0, 0], [1, 1, 1], [2, 2, 2]] ∧
        s.z = [[0, 1 / 2, 1], [-2, -3 / 2, -1], [-4, -7 / 2, -3]])
    | _ => false) = true := by decide +kernel

end Plotting
end Verif
