import Verif.Props.FrontDoor
import Mathlib.Algebra.BigOperators.Field

/-!
# The population mean of the front-door score (C52)
-/

set_option linter.unusedSectionVars false
set_option linter.unusedSimpArgs false

namespace Verif
open Param Obs

section
variable {n : Nat} {α : Type} [Field α] [LinearOrder α] [IsStrictOrderedRing α]

/-- Weight of exposure 1. -/
theorem weight_one (w : Fin n → α) (unit : Fin n → Obs α) (hx : ∀ i, (unit i).Binary) :
    ∑ i ∈ Finset.univ.filter (fun i => (unit i).xv = 1), w i = trueExposure w unit := by
  unfold trueExposure
  rw [Finset.sum_filter]
  apply Finset.sum_congr rfl
  intro i _
  rcases hx i with h | h <;> simp [h]

theorem weight_zero (w : Fin n → α) (unit : Fin n → Obs α) (hx : ∀ i, (unit i).Binary) (h1 : ∑ i, w i = 1) :
    ∑ i ∈ Finset.univ.filter (fun i => (unit i).xv = 0), w i = 1 - trueExposure w unit := by
  unfold trueExposure
  rw [← h1, ← Finset.sum_sub_distrib, Finset.sum_filter]
  apply Finset.sum_congr rfl
  intro i _
  rcases hx i with h | h <;> simp [h]

/-- The conditional mean of a function of the covariates is its integral against `P(z|x)`. -/
theorem sum_trueCond (w : Fin n → α) (unit : Fin n → Obs α) (x : α) (g : List α → α) :
    ∑ z ∈ zSupport unit, trueCond w unit x z * g z =
      (∑ i ∈ Finset.univ.filter (fun i => (unit i).xv = x), w i * g (unit i).zv) /
        ∑ i ∈ Finset.univ.filter (fun i => (unit i).xv = x), w i := by
  simp only [trueCond, condMean, div_mul_eq_mul_div]
  rw [← Finset.sum_div]
  congr 1
  simp only [Finset.sum_mul]
  rw [Finset.sum_comm]
  apply Finset.sum_congr rfl
  intro i _
  rw [Finset.sum_eq_single (unit i).zv]
  · simp
  · intro z _ hz
    rw [if_neg (fun h => hz h.symm)]; simp
  · intro h
    exact absurd (Finset.mem_image_of_mem _ (Finset.mem_univ i)) h

/-- Weighting by `x/q - (1-x)/(1-q)` integrates a function of the covariates against `P(z|1) - P(z|0)`. -/
theorem sum_weighted (w : Fin n → α) (unit : Fin n → Obs α) (hx : ∀ i, (unit i).Binary) (h1 : ∑ i, w i = 1) (g : List α → α) :
    ∑ i, w i * (((unit i).xv / trueExposure w unit - (1 - (unit i).xv) / (1 - trueExposure w unit)) * g (unit i).zv) =
      ∑ z ∈ zSupport unit, (trueCond w unit 1 z - trueCond w unit 0 z) * g z := by
  simp only [sub_mul, Finset.sum_sub_distrib]
  rw [sum_trueCond, sum_trueCond, weight_one w unit hx, weight_zero w unit hx h1, Finset.sum_div, Finset.sum_div,
    Finset.sum_filter, Finset.sum_filter, ← Finset.sum_sub_distrib]
  apply Finset.sum_congr rfl
  intro i _
  rcases hx i with h | h <;> simp [h] <;> ring

end

namespace FrontDoor
variable {M α : Type} [Field α] [LinearOrder α] [IsStrictOrderedRing α]

theorem list_sum_eq (L : List (List (Cell α))) (S : Finset (List α)) (hn : (L.map fun z => z.map Cell.val).Nodup)
    (hS : ∀ v, v ∈ S ↔ v ∈ L.map fun z => z.map Cell.val) (f : List α → α) :
    (L.map fun z => f (z.map Cell.val)).sum = ∑ v ∈ S, f v := by
  have : S = (L.map fun z => z.map Cell.val).toFinset := by
    ext v; rw [hS, List.mem_toFinset]
  rw [this, List.sum_toFinset _ hn, List.map_map]
  rfl

/-- **C52 (partial)**: take any finite population with total weight 1, binary integer-coded exposures, both of
positive weight, and one covariate, and a fitted parameter holding the *true* nuisance: the response model
is `E[Y|x,z]`, the table is `P(z|x)` with values that clipping does not change, the exposure probability is
`P(X=1)`, and the support of the table is the set of covariate values.  Then the mean score is not the
front-door effect `τ` but `2 τ - sum_z (P(z|1) - P(z|0)) f_3(z)` with the documented
`f_3(z) = sum_z',x' mu(x',z') P(z|x') P(x')`.  Missing: unbiasedness, which needs that last sum to be `τ`
(see `C52_violated`). -/
theorem C52_mean_score_partial (R : Predictor M α) (s : FrontDoor M α) (hfit : s.hasBeenFit = true) (hdim : s.covDim = 1)
    (ho1 : 0 < s.minOverlap) (ho2 : s.minOverlap ≤ 1 / 2)
    {n : ℕ} (hn : 0 < n) (unit : Fin n → Obs α) (w : Fin n → α) (hw : ∀ i, 0 ≤ w i) (h1 : ∑ i, w i = 1)
    (hx : ∀ i, (unit i).x = .int 0 ∨ (unit i).x = .int 1)
    (hmu : ∀ z ∈ zSupport unit, R.predict s.yResponse (1 :: z) = trueResponse w unit 1 z ∧
      R.predict s.yResponse (0 :: z) = trueResponse w unit 0 z)
    (hq : s.expProb = trueExposure w unit) (hq' : s.minOverlap ≤ s.expProb ∧ s.expProb ≤ 1 - s.minOverlap)
    (hlen : ∀ z ∈ s.cpd.zValues, z.length = 1)
    (hz : ∀ i, rowKey (unit i).z ∈ s.cpd.zValues)
    (hnd : (s.cpd.zValues.map fun z => z.map Cell.val).Nodup)
    (hsupp : ∀ v, v ∈ zSupport unit ↔ v ∈ s.cpd.zValues.map fun z => z.map Cell.val)
    (hP : ∀ z ∈ s.cpd.zValues, (s.cpd.predict [(.int 1, z)]).1 = [trueCond w unit 1 (z.map Cell.val)] ∧
      (s.cpd.predict [(.int 0, z)]).1 = [trueCond w unit 0 (z.map Cell.val)])
    (hclip : ∀ z ∈ zSupport unit, s.minOverlap ≤ trueCond w unit 1 z ∧ trueCond w unit 1 z ≤ 1 - s.minOverlap ∧
      s.minOverlap ≤ trueCond w unit 0 z ∧ trueCond w unit 0 z ≤ 1 - s.minOverlap) :
    ∃ sc : Fin n → α, (score R (Obs.dataset 1 (List.ofFn unit)) s).1 = .ok (List.ofFn fun i => .fin (sc i)) ∧
      ∑ i, w i * sc i = 2 * frontDoorEffect w unit -
        ∑ z ∈ zSupport unit, (trueCond w unit 1 z - trueCond w unit 0 z) *
          ∑ z' ∈ zSupport unit, (trueResponse w unit 1 z' * trueCond w unit 1 z * trueExposure w unit +
            trueResponse w unit 0 z' * trueCond w unit 0 z * (1 - trueExposure w unit)) := by
  have hxb : ∀ i, (unit i).Binary := by
    intro i
    rcases hx i with h | h <;> simp [Obs.Binary, Obs.xv, h, Cell.val]
  have hc1 : ∀ z ∈ s.cpd.zValues, s.cpd.cell (.int 1) z = trueCond w unit 1 (z.map Cell.val) := by
    intro z hz
    have h := (hP z hz).1
    rw [(Tab.predict_eq _ _).1] at h
    simpa using h
  have hc0 : ∀ z ∈ s.cpd.zValues, s.cpd.cell (.int 0) z = trueCond w unit 0 (z.map Cell.val) := by
    intro z hz
    have h := (hP z hz).2
    rw [(Tab.predict_eq _ _).1] at h
    simpa using h
  have hkv : ∀ z : List (Cell α), (rowKey z).map Cell.val = z.map Cell.val := by
    intro z
    simp only [rowKey, List.map_map]
    apply List.map_congr_left
    intro c _
    cases c with
    | int a => rfl
    | flt a =>
      simp only [Function.comp, Cell.key]
      split
      · rename_i h; simp [Cell.val, h]
      · rfl
  have hmem : ∀ i, (unit i).zv ∈ zSupport unit := fun i => Finset.mem_image_of_mem _ (Finset.mem_univ i)
  have hid : ∀ p, s.minOverlap ≤ p → p ≤ 1 - s.minOverlap → clip p s.minOverlap (1 - s.minOverlap) = p := by
    intro p h h'
    unfold clip
    rw [max_eq_left h, min_eq_left h']
  have hp1 : ∀ i, clip (s.cpd.cell (.int 1) (rowKey (unit i).z)) s.minOverlap (1 - s.minOverlap) = trueCond w unit 1 (unit i).zv := by
    intro i
    rw [hc1 _ (hz i), hkv]
    exact hid _ (hclip _ (hmem i)).1 (hclip _ (hmem i)).2.1
  have hp0 : ∀ i, clip (s.cpd.cell (.int 0) (rowKey (unit i).z)) s.minOverlap (1 - s.minOverlap) = trueCond w unit 0 (unit i).zv := by
    intro i
    rw [hc0 _ (hz i), hkv]
    exact hid _ (hclip _ (hmem i)).2.2.1 (hclip _ (hmem i)).2.2.2
  have hpx : ∀ i, clip (s.cpd.cell (unit i).x.key (rowKey (unit i).z)) s.minOverlap (1 - s.minOverlap) = trueCond w unit (unit i).xv (unit i).zv := by
    intro i
    rcases hx i with h | h
    · rw [h]; simp only [Cell.key, Obs.xv, h, Cell.val, Int.cast_zero]; exact hp0 i
    · rw [h]; simp only [Cell.key, Obs.xv, h, Cell.val, Int.cast_one]; exact hp1 i
  have hmux : ∀ i, ∀ z ∈ zSupport unit, R.predict s.yResponse ((unit i).xv :: z) = trueResponse w unit (unit i).xv z := by
    intro i z hz
    rcases hxb i with h | h <;> rw [h]
    · exact (hmu z hz).2
    · exact (hmu z hz).1
  obtain ⟨t', -, e⟩ := score_dataset R s (List.ofFn unit) hfit
    (by intro h; have := congrArg List.length h; simp at this; omega)
    (fun z hz he => by have := hlen z hz; rw [he] at this; simp at this) ho1 ho2 hq'
  -- the two sums over the support
  have hf1 : ∀ i, f1Sum R s.yResponse s.cpd (unit i).xv s.cpd.zValues =
      ∑ z ∈ zSupport unit, trueResponse w unit (unit i).xv z * (trueCond w unit 1 z - trueCond w unit 0 z) := by
    intro i
    rw [← list_sum_eq s.cpd.zValues (zSupport unit) hnd hsupp]
    unfold f1Sum
    congr 1
    apply List.map_congr_left
    intro z hz
    have hv : z.map Cell.val ∈ zSupport unit := (hsupp _).mpr (List.mem_map_of_mem (f := fun z : List (Cell α) => z.map Cell.val) hz)
    rw [List.take_of_length_le (hlen z hz).le, hc1 z hz, hc0 z hz, hmux i _ hv]
  have hf3 : ∀ p1 p0, f3Sum R s.yResponse s.expProb p1 p0 s.cpd.zValues =
      ∑ z ∈ zSupport unit, (trueResponse w unit 1 z * p1 * trueExposure w unit + trueResponse w unit 0 z * p0 * (1 - trueExposure w unit)) := by
    intro p1 p0
    rw [← list_sum_eq s.cpd.zValues (zSupport unit) hnd hsupp]
    unfold f3Sum
    congr 1
    apply List.map_congr_left
    intro z hz
    have hv : z.map Cell.val ∈ zSupport unit := (hsupp _).mpr (List.mem_map_of_mem (f := fun z : List (Cell α) => z.map Cell.val) hz)
    rw [(hmu _ hv).1, (hmu _ hv).2, hq]
    ring
  rw [hdim] at e
  refine ⟨_, by rw [e, List.map_ofFn]; rfl, ?_⟩
  simp only [hp1, hp0, hpx, hf1, hf3, frontDoorScore]
  rw [Finset.sum_congr rfl (fun i _ => by
    rw [hmux i _ (hmem i), (hmu _ (hmem i)).1, (hmu _ (hmem i)).2, hq])]
  -- the residual term has mean zero
  have t1 := tower Finset.univ w (fun i _ => hw i) (fun j => ((unit j).xv, (unit j).zv)) (fun j => (unit j).yv)
    (fun k => (trueCond w unit 1 k.2 - trueCond w unit 0 k.2) / trueCond w unit k.1 k.2)
  have r0 : ∑ i, w i * (((unit i).yv - trueResponse w unit (unit i).xv (unit i).zv) *
      (trueCond w unit 1 (unit i).zv - trueCond w unit 0 (unit i).zv) / trueCond w unit (unit i).xv (unit i).zv) = 0 := by
    have : ∀ i, w i * (((unit i).yv - trueResponse w unit (unit i).xv (unit i).zv) *
      (trueCond w unit 1 (unit i).zv - trueCond w unit 0 (unit i).zv) / trueCond w unit (unit i).xv (unit i).zv) =
      w i * (unit i).yv * ((trueCond w unit 1 (unit i).zv - trueCond w unit 0 (unit i).zv) / trueCond w unit (unit i).xv (unit i).zv) -
      w i * trueResponse w unit (unit i).xv (unit i).zv * ((trueCond w unit 1 (unit i).zv - trueCond w unit 0 (unit i).zv) / trueCond w unit (unit i).xv (unit i).zv) := by
      intro i; ring
    rw [Finset.sum_congr rfl fun i _ => this i, Finset.sum_sub_distrib, sub_eq_zero]
    exact t1
  -- the second term
  have r1 : ∑ i, w i * ∑ z ∈ zSupport unit, trueResponse w unit (unit i).xv z * (trueCond w unit 1 z - trueCond w unit 0 z) =
      frontDoorEffect w unit := by
    have hb : ∀ i, w i * ∑ z ∈ zSupport unit, trueResponse w unit (unit i).xv z * (trueCond w unit 1 z - trueCond w unit 0 z) =
        w i * (unit i).xv * (∑ z ∈ zSupport unit, trueResponse w unit 1 z * (trueCond w unit 1 z - trueCond w unit 0 z)) +
        (w i - w i * (unit i).xv) * (∑ z ∈ zSupport unit, trueResponse w unit 0 z * (trueCond w unit 1 z - trueCond w unit 0 z)) := by
      intro i
      rcases hxb i with h | h <;> rw [h] <;> ring
    rw [Finset.sum_congr rfl fun i _ => hb i, Finset.sum_add_distrib, ← Finset.sum_mul, ← Finset.sum_mul, Finset.sum_sub_distrib, h1]
    show trueExposure w unit * _ + (1 - trueExposure w unit) * _ = _
    rw [Finset.mul_sum, Finset.mul_sum, ← Finset.sum_add_distrib]
    apply Finset.sum_congr rfl
    intro z _
    ring
  -- the third term
  have r2 := sum_weighted w unit hxb h1 (fun z => trueExposure w unit * trueResponse w unit 1 z + (1 - trueExposure w unit) * trueResponse w unit 0 z)
  have r3 := sum_weighted w unit hxb h1 (fun z => ∑ z' ∈ zSupport unit, (trueResponse w unit 1 z' * trueCond w unit 1 z * trueExposure w unit +
    trueResponse w unit 0 z' * trueCond w unit 0 z * (1 - trueExposure w unit)))
  rw [← r3]
  have r2' : frontDoorEffect w unit = _ := r2.symm
  rw [two_mul]
  nth_rewrite 1 [← r1]
  rw [r2']
  have hsum : ∀ A B C D : Fin n → α, ∑ i, w i * A i = 0 → ∑ i, w i * (A i + B i + C i) = ∑ i, w i * B i + ∑ i, w i * C i := by
    intro A B C D h
    simp only [mul_add, Finset.sum_add_distrib, h, zero_add]
  rw [hsum _ _ _ (fun _ => 0) r0, add_sub_assoc, ← Finset.sum_sub_distrib]
  congr 1
  apply Finset.sum_congr rfl
  intro i _
  ring

/-! ## Concrete cases -/

/-- Eight units of weight `1/8`: exposure, one binary mediator, response `2 x + 4 z`. -/
def demoFd : Fin 8 → Obs ℚ :=
  ![⟨[.int 0], .int 0, .flt 0⟩, ⟨[.int 0], .int 0, .flt 0⟩, ⟨[.int 0], .int 0, .flt 0⟩, ⟨[.int 1], .int 0, .flt 4⟩,
    ⟨[.int 0], .int 1, .flt 2⟩, ⟨[.int 1], .int 1, .flt 6⟩, ⟨[.int 1], .int 1, .flt 6⟩, ⟨[.int 1], .int 1, .flt 6⟩]

/-- A response model that has found the truth. -/
def demoMu : Predictor Unit ℚ := AIPW.constPredictor fun r => 2 * r.headD 0 + 4 * (r.drop 1).headD 0

/-- The parameter fitted on the eight units. -/
def demoFdFitted : FrontDoor Unit ℚ := (fit demoMu (Obs.dataset 1 (List.ofFn demoFd)) (new () 1 1 (1 / 20) 10)).2

/-- **C52 is violated**: the fitted parameter below holds the true response function, conditional covariate
distribution and exposure probability of a population whose front-door effect is 2, but the mean of its
scores over that population is `7/2`. -/
theorem C52_violated :
    demoFdFitted.hasBeenFit = true ∧
    (∀ i, demoMu.predict () ((demoFd i).xv :: (demoFd i).zv) = trueResponse (fun _ => 1 / 8) demoFd (demoFd i).xv (demoFd i).zv) ∧
    (∀ i, (demoFdFitted.cpd.predict [((demoFd i).x, (demoFd i).z)]).1 = [trueCond (fun _ => 1 / 8) demoFd (demoFd i).xv (demoFd i).zv]) ∧
    demoFdFitted.expProb = trueExposure (fun _ => 1 / 8) demoFd ∧
    frontDoorEffect (fun _ => 1 / 8) demoFd = 2 ∧
    (score demoMu (Obs.dataset 1 (List.ofFn demoFd)) demoFdFitted).1 = .ok ([5, 5, 5, -1, -1, 5, 5, 5].map Fl.fin) ∧
    (([5, 5, 5, -1, -1, 5, 5, 5] : List ℚ).map (1 / 8 * ·)).sum = 7 / 2 := by
  decide +kernel

/-- All hypotheses of `C52_mean_score_partial` hold for it. -/
example :
    demoFdFitted.hasBeenFit = true ∧ demoFdFitted.covDim = 1 ∧ 0 < demoFdFitted.minOverlap ∧ demoFdFitted.minOverlap ≤ 1 / 2 ∧
    (∀ i, (demoFd i).x = .int 0 ∨ (demoFd i).x = .int 1) ∧
    (∀ z ∈ zSupport demoFd, demoMu.predict demoFdFitted.yResponse (1 :: z) = trueResponse (fun _ => 1 / 8) demoFd 1 z ∧
      demoMu.predict demoFdFitted.yResponse (0 :: z) = trueResponse (fun _ => 1 / 8) demoFd 0 z) ∧
    demoFdFitted.expProb = trueExposure (fun _ => 1 / 8) demoFd ∧
    (demoFdFitted.minOverlap ≤ demoFdFitted.expProb ∧ demoFdFitted.expProb ≤ 1 - demoFdFitted.minOverlap) ∧
    (∀ z ∈ demoFdFitted.cpd.zValues, z.length = 1) ∧
    (∀ i, rowKey (demoFd i).z ∈ demoFdFitted.cpd.zValues) ∧
    (demoFdFitted.cpd.zValues.map fun z => z.map Cell.val).Nodup ∧
    zSupport demoFd = (demoFdFitted.cpd.zValues.map fun z => z.map Cell.val).toFinset ∧
    (∀ z ∈ demoFdFitted.cpd.zValues, (demoFdFitted.cpd.predict [(.int 1, z)]).1 = [trueCond (fun _ => 1 / 8) demoFd 1 (z.map Cell.val)] ∧
      (demoFdFitted.cpd.predict [(.int 0, z)]).1 = [trueCond (fun _ => 1 / 8) demoFd 0 (z.map Cell.val)]) ∧
    (∀ z ∈ zSupport demoFd, 1 / 20 ≤ trueCond (fun _ => 1 / 8) demoFd 1 z ∧ trueCond (fun _ => 1 / 8) demoFd 1 z ≤ 1 - 1 / 20 ∧
      1 / 20 ≤ trueCond (fun _ => 1 / 8) demoFd 0 z ∧ trueCond (fun _ => 1 / 8) demoFd 0 z ≤ 1 - 1 / 20) := by
  decide +kernel

/-- C51: the same fit as a history, followed by scoring. -/
example :
    (after demoMu () [.fit 1 (List.ofFn demoFd), .reset, .fit 1 (List.ofFn demoFd)] (new () 1 1 (1 / 20) 10)).hasBeenFit = true ∧
    (∀ i, (demoFd i).z.length = 1) := by
  decide +kernel

/-- Two covariate columns: the first binary and informative, the second constant. -/
def demoFd2 : List (Obs ℚ) := List.ofFn fun i => { demoFd i with z := (demoFd i).z ++ [.int 7] }

/-- A response model for two columns. -/
def demoMu2 : Predictor Unit ℚ := AIPW.constPredictor fun r => 2 * r.headD 0 + 4 * (r.drop 1).headD 0

/-- `C51_multi_violated` bites: the documented middle term for the units with exposure 1 is 2, not 0, and the scores
differ from the scores without the constant column by exactly that amount. -/
example :
    let s := after demoMu2 () [.fit 2 demoFd2] (new () 2 1 (1 / 20) 10)
    s.hasBeenFit = true ∧ (∀ u ∈ demoFd2, u.z.length = 2) ∧
    (s.cpd.zValues.map fun z => demoMu2.predict () (1 :: z.map Cell.val) *
      ((s.cpd.predict [(.int 1, z)]).1.headD 0 - (s.cpd.predict [(.int 0, z)]).1.headD 0)).sum = 2 ∧
    (score demoMu2 (Obs.dataset 2 demoFd2) s).1 = .ok (([5, 5, 5, -1, -1, 5, 5, 5] : List ℚ).map fun a => Fl.fin (a - 2)) := by
  decide +kernel

/-- `C51_float_exposure_violated`: the same units with float exposures; `P(z=1|X=1) = 3/4` in the data, but the
table answers 0 for the integer exposure the code asks for. -/
example :
    let us := (List.ofFn demoFd).map fun u => { u with x := .flt u.xv }
    let s := after demoMu () [.fit 1 us] (new () 1 1 (1 / 20) 10)
    (∀ u ∈ us, u.x = .flt u.xv) ∧ s.hasBeenFit = true ∧
    (s.cpd.predict [(.int 1, [.int 1])]).1 = [0] ∧ (s.cpd.predict [(.flt 1, [.int 1])]).1 = [3 / 4] := by
  decide +kernel

/-- C57: a parameter that a fit has changed. -/
example : demoFdFitted ≠ new () 1 1 (1 / 20) 10 ∧ reset () demoFdFitted = new () 1 1 (1 / 20) 10 := by
  constructor
  · intro h
    exact absurd (congrArg FrontDoor.hasBeenFit h) (by decide +kernel)
  · exact C57_frontdoor demoMu () [.fit 1 (List.ofFn demoFd)] 1 1 (1 / 20) 10

end FrontDoor
end Verif
