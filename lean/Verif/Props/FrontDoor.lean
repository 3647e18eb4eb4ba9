import Verif.Props.Parameters
import Verif.Lemmas.FrontDoor2

/-!
# Properties of `FrontDoorLinearFiniteZ` (C51, C52, C57)
-/

set_option linter.unusedSectionVars false
set_option linter.unusedSimpArgs false

namespace Verif
open Param

namespace FrontDoor
variable {M α : Type} [Field α] [LinearOrder α] [IsStrictOrderedRing α]

theorem predict_one (t : Tab (Cell α) (List (Cell α)) α) (P : Cell α → List (Cell α) → α)
    (hP : ∀ x z, (t.predict [(x, z)]).1 = [P x z]) : ∀ x z, t.cell x z = P x z := by
  intro x z
  have h := hP x z
  rw [(Tab.predict_eq _ _).1] at h
  simpa using h

theorem rowKey_length (z : List (Cell α)) : (rowKey z).length = z.length := by simp [rowKey]

/-- **C51 for one covariate** (partial): after any history of fits on datasets with one covariate column and
resets, a fitted parameter (`0 < min_overlap ≤ 1/2`) scores every unit by the documented formula, where
`P x z` is the answer of the fitted `TabularCPD` for exposure *key* `x`, the outer probabilities are clipped
to `[min_overlap, 1 - min_overlap]`, the exposure probability lies in that interval, and the sums range
over the support of the table.  Missing: `f_1` uses the unclipped probabilities, exposures `1` and `0` are
looked up as integers (see `C51_float_exposure_violated`), and more columns fail
(`C51_multi_violated`). -/
theorem C51_one_feature_partial (R : Predictor M α) (ridge0 : M) (minUnits : Int) (mo ratio : α) (ho1 : 0 < mo) (ho2 : mo ≤ 1 / 2)
    (h : List (EtaEvent α)) (hrows : ∀ us, EtaEvent.fit 1 us ∈ h → ∀ u ∈ us, u.z.length = 1)
    (s : FrontDoor M α) (hs : s = after R ridge0 h (new ridge0 1 minUnits mo ratio)) (hfit : s.hasBeenFit = true)
    (P : Cell α → List (Cell α) → α) (hP : ∀ x z, (s.cpd.predict [(x, z)]).1 = [P x z])
    (us : List (Obs α)) (hne : us ≠ []) :
    mo ≤ s.expProb ∧ s.expProb ≤ 1 - mo ∧
    (score R (Obs.dataset 1 us) s).1 = .ok (us.map fun u => .fin (
      let mu := fun x z => R.predict s.yResponse (x :: z)
      let c := fun p => max mo (min p (1 - mo))
      let p1 := c (P (.int 1) (rowKey u.z))
      let p0 := c (P (.int 0) (rowKey u.z))
      let f1 := (s.cpd.zValues.map fun z => mu u.xv (z.map Cell.val) * (P (.int 1) z - P (.int 0) z)).sum
      let f3 := (s.cpd.zValues.map fun z => mu 1 (z.map Cell.val) * p1 * s.expProb + mu 0 (z.map Cell.val) * p0 * (1 - s.expProb)).sum
      frontDoorScore mu s.expProb p1 p0 (c (P u.x.key (rowKey u.z))) f1 f3 u)) := by
  obtain ⟨hi, hc⟩ := inv_after (fun _ => True) (fun z => z.length = 1) R ridge0 h (new ridge0 1 minUnits mo ratio)
    (inv_new _ _ _ _ _ _ _) (fun us hm u hu => ⟨trivial, by rw [rowKey_length]; exact hrows us hm u hu⟩)
  rw [← hs] at hi hc
  have hdim : s.covDim = 1 := hc.1
  have hmo : s.minOverlap = mo := hc.2.1
  have hq := hi.q (by rw [hmo]; exact ho2)
  rw [hmo] at hq
  obtain ⟨t', -, e⟩ := score_dataset R s us hfit hne (fun z hz he => by
    have := hi.keys.zs z hz; rw [he] at this; simp at this) (by rw [hmo]; exact ho1) (by rw [hmo]; exact ho2) (by rw [hmo]; exact hq)
  refine ⟨hq.1, hq.2, ?_⟩
  rw [hdim] at e
  rw [e]
  have hcell := predict_one s.cpd P hP
  have hclip : ∀ p : α, clip p mo (1 - mo) = max mo (min p (1 - mo)) := by
    intro p
    unfold clip
    rw [max_comm p mo, max_min_distrib_left, max_eq_right (by linarith : mo ≤ 1 - mo)]
  simp only [hcell, hmo, hclip]
  congr 1
  apply List.map_congr_left
  intro u _
  congr 2
  · unfold f1Sum
    congr 1
    apply List.map_congr_left
    intro z hz
    have hl : z.length = 1 := hi.keys.zs z hz
    rw [List.take_of_length_le hl.le]
    simp only [hcell]
  · unfold f3Sum
    congr 1
    apply List.map_congr_left
    intro z hz
    ring

/-- **C51 is violated for two or more covariate columns**: after any history the middle term
`sum_z' mu(x,z') (P(z'|1) - P(z'|0))` is dropped — `predict(np.array([1]), z)` looks up the first *entry*
of the row `z`, which is never a key of the table — so the score is the documented formula with `f1 = 0`. -/
theorem C51_multi_violated (R : Predictor M α) (ridge0 : M) (dim : Nat) (hdim : 2 ≤ dim) (minUnits : Int) (mo ratio : α)
    (ho1 : 0 < mo) (ho2 : mo ≤ 1 / 2)
    (h : List (EtaEvent α)) (hrows : ∀ us, EtaEvent.fit dim us ∈ h → ∀ u ∈ us, u.z.length = dim)
    (s : FrontDoor M α) (hs : s = after R ridge0 h (new ridge0 dim minUnits mo ratio)) (hfit : s.hasBeenFit = true)
    (P : Cell α → List (Cell α) → α) (hP : ∀ x z, (s.cpd.predict [(x, z)]).1 = [P x z])
    (us : List (Obs α)) (hne : us ≠ []) :
    (score R (Obs.dataset dim us) s).1 = .ok (us.map fun u => .fin (
      let mu := fun x z => R.predict s.yResponse (x :: z)
      let c := fun p => max mo (min p (1 - mo))
      let p1 := c (P (.int 1) (rowKey u.z))
      let p0 := c (P (.int 0) (rowKey u.z))
      let f3 := (s.cpd.zValues.map fun z => mu 1 (z.map Cell.val) * p1 * s.expProb + mu 0 (z.map Cell.val) * p0 * (1 - s.expProb)).sum
      frontDoorScore mu s.expProb p1 p0 (c (P u.x.key (rowKey u.z))) 0 f3 u)) := by
  obtain ⟨hi, hc⟩ := inv_after (fun _ => True) (fun z => z.length = dim) R ridge0 h (new ridge0 dim minUnits mo ratio)
    (inv_new _ _ _ _ _ _ _) (fun us hm u hu => ⟨trivial, by rw [rowKey_length]; exact hrows us hm u hu⟩)
  rw [← hs] at hi hc
  have hdim' : s.covDim = dim := hc.1
  have hmo : s.minOverlap = mo := hc.2.1
  have hq := hi.q (by rw [hmo]; exact ho2)
  obtain ⟨t', -, e⟩ := score_dataset R s us hfit hne (fun z hz he => by
    have := hi.keys.zs z hz; rw [he] at this; simp at this; omega) (by rw [hmo]; exact ho1) (by rw [hmo]; exact ho2) hq
  rw [hdim'] at e
  rw [e]
  have hcell := predict_one s.cpd P hP
  have hclip : ∀ p : α, clip p mo (1 - mo) = max mo (min p (1 - mo)) := by
    intro p
    unfold clip
    rw [max_comm p mo, max_min_distrib_left, max_eq_right (by linarith : mo ≤ 1 - mo)]
  have h0 : ∀ x z, z ∈ s.cpd.zValues → s.cpd.cell x (z.take 1) = 0 := by
    intro x z _
    by_contra hne
    have hl : (z.take 1).length = dim := (hi.keys.cell _ _ hne).2
    rw [List.length_take] at hl
    omega
  simp only [hcell, hmo, hclip]
  congr 1
  apply List.map_congr_left
  intro u _
  congr 2
  · unfold f1Sum
    apply List.sum_eq_zero
    intro a ha
    obtain ⟨z, hz, rfl⟩ := List.mem_map.mp ha
    rw [h0 _ z hz, h0 _ z hz, sub_self, mul_zero]
  · unfold f3Sum
    congr 1
    apply List.map_congr_left
    intro z hz
    ring

/-- **C51 is violated for float exposures**: if every fitted exposure is stored as a float, the table has no
row for the integer key `1`: the documented `P(z|X=1)` is 0 for every `z` (`min_overlap` after clipping),
whatever the data. -/
theorem C51_float_exposure_violated (R : Predictor M α) (ridge0 : M) (dim : Nat) (minUnits : Int) (mo ratio : α)
    (h : List (EtaEvent α)) (hflt : ∀ us, EtaEvent.fit dim us ∈ h → ∀ u ∈ us, ∃ a, u.x = .flt a)
    (s : FrontDoor M α) (hs : s = after R ridge0 h (new ridge0 dim minUnits mo ratio)) (z : List (Cell α)) :
    (s.cpd.predict [(.int 1, z)]).1 = [0] := by
  obtain ⟨hi, hc⟩ := inv_after (fun x => x ≠ .int 1) (fun _ => True) R ridge0 h (new ridge0 dim minUnits mo ratio)
    (inv_new _ _ _ _ _ _ _) (fun us hm u hu => ⟨by
      obtain ⟨a, ha⟩ := hflt us hm u hu
      rw [ha]
      unfold Cell.key
      dsimp only
      split <;> simp, trivial⟩)
  rw [← hs] at hi
  rw [(Tab.predict_eq _ _).1]
  simp only [List.map_cons, List.map_nil, List.cons.injEq, and_true]
  by_contra hne
  exact (hi.keys.cell _ _ hne).1 rfl

/-- **C57 for the front-door parameter**: after any history `reset()` gives exactly the parameter that was
constructed. -/
theorem C57_frontdoor (R : Predictor M α) (ridge0 : M) (h : List (EtaEvent α)) (dim : Nat) (minUnits : Int) (mo ratio : α) :
    reset ridge0 (after R ridge0 h (new ridge0 dim minUnits mo ratio)) = new ridge0 dim minUnits mo ratio := by
  obtain ⟨-, c1, c2, c3, c4⟩ := inv_after (fun _ => True) (fun _ => True) R ridge0 h (new ridge0 dim minUnits mo ratio)
    (inv_new _ _ _ _ _ _ _) (fun _ _ _ _ => ⟨trivial, trivial⟩)
  unfold reset
  rw [c1, c2, c3, c4]
  rfl

end FrontDoor
end Verif
