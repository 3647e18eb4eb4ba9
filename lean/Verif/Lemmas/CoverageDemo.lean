import Verif.Lemmas.Coverage3
import Verif.Lemmas.Arms9
import Verif.Lemmas.Arms2

/-!
# An arm whose scores are the responses, fed with pairs of units

Used by the examples of C89-C91.
-/

set_option linter.unusedSectionVars false

namespace Verif
namespace Arm
open ExpData

variable {β : Type} [Zero β]

/-- a nuisance parameter that computes the scores from the responses, without any fitting -/
def viewEta (f : List β → List ℝ) : EtaOps Unit β ℝ where
  fit := fun _ _ => (.ok (), ())
  hasEnough := fun _ => .ok true
  score := fun _ d => (.ok ((f (d.rsp.getD [])).map Fl.fin), ())
  csWidth := fun _ _ _ _ => .ok (some (.fin 0))
  reset := fun _ => ()

theorem viewEta_repeatable (f : List β → List ℝ) : ScoreRepeatable (viewEta f) := fun _ _ => rfl

/-- a nuisance parameter that uses the responses as scores -/
def respEta : EtaOps Unit ℝ ℝ := viewEta id

theorem respEta_repeatable : ScoreRepeatable respEta := fun _ _ => rfl

/-- identity permutations -/
def stillRng {W : Type} : Rng W ℝ where
  perm := fun n w => (Equiv.refl (Fin n), w)
  mask := fun _ _ w => (fun _ => true, w)

/-- units with the given responses -/
def half (xs : List β) : ExpData β := new (some (.d2 1 (xs.map fun _ => [0]))) (some (xs.map fun _ => 0)) (some xs)

/-- a unit with response zero before each of the given responses -/
def pairs (xs : List β) : ExpData β := half (xs.flatMap fun x => [0, x])

theorem half_nUnits (xs : List β) : (half xs).nUnits = xs.length := by simp [half, new, Arr.len]

theorem half_append (xs ys : List β) : (half xs).append (half ys) = (.ok (), half (xs ++ ys)) := by
  simp [half, ExpData.append, new, Arr.nFeatures, catCov, Arr.concat, Arr.len]

theorem foldLabels_refl (n : ℕ) : foldLabels n 2 (Equiv.refl (Fin n)) = (List.range n).map (· % 2) := by
  unfold foldLabels
  apply List.ext_getElem <;> simp

theorem labels_pairs {γ : Type} (xs : List γ) :
    (List.range (2 * xs.length)).map (· % 2) = xs.flatMap fun _ => [0, 1] := by
  induction xs using List.reverseRecOn with
  | nil => rfl
  | append_singleton l x ih =>
    rw [List.length_append, List.length_singleton, mul_add, mul_one, List.range_succ, List.range_succ,
      List.map_append, List.map_append, ih, List.flatMap_append]
    simp [List.flatMap]

theorem filter_pairs0 {γ : Type} (xs : List β) (f : β → γ) :
    filterMask ((xs.flatMap fun _ => [0, 1]).map (· == 0)) ((xs.flatMap fun x => [(0 : β), x]).map f) = xs.map fun _ => f 0 := by
  induction xs with
  | nil => rfl
  | cons x l ih => simpa [filterMask] using ih

theorem filter_pairs1 {γ : Type} (xs : List β) (f : β → γ) :
    filterMask ((xs.flatMap fun _ => [0, 1]).map (· == 1)) ((xs.flatMap fun x => [(0 : β), x]).map f) = xs.map f := by
  induction xs with
  | nil => rfl
  | cons x l ih => simpa [filterMask] using ih

theorem len_pairs (xs : List β) : (xs.flatMap fun x => [(0 : β), x]).length = 2 * xs.length := by
  induction xs with
  | nil => rfl
  | cons x l ih => simp only [List.flatMap_cons, List.length_append, ih, List.length_cons, List.length_nil]; omega

theorem pairs_fold (xs : List β) : (pairs xs).kFold 2 (Equiv.refl (Fin (pairs xs).nUnits)) = .ok [half (xs.map fun _ => 0), half xs] := by
  have hl : foldLabels (pairs xs).nUnits 2 (Equiv.refl (Fin (pairs xs).nUnits)) = xs.flatMap fun _ => [0, 1] := by
    rw [foldLabels_refl, pairs, half_nUnits, len_pairs, labels_pairs]
  have hll : (xs.flatMap fun _ => [0, 1]).length = 2 * xs.length := by
    rw [← labels_pairs]; simp
  have sel : ∀ i, (pairs xs).select ((xs.flatMap fun _ => [0, 1]).map (· == i)) =
      .ok (new (some (.d2 1 (filterMask ((xs.flatMap fun _ => [0, 1]).map (· == i)) ((xs.flatMap fun x => [(0 : β), x]).map fun _ => [0]))))
        (some (filterMask ((xs.flatMap fun _ => [0, 1]).map (· == i)) ((xs.flatMap fun x => [(0 : β), x]).map fun _ => 0)))
        (some (filterMask ((xs.flatMap fun _ => [0, 1]).map (· == i)) ((xs.flatMap fun x => [(0 : β), x]).map id)))) := by
    intro i
    unfold pairs half select
    simp only [new, maskCov, maskOpt, maskList, Arr.len, List.length_map, hll, len_pairs, if_true, Arr.onRows, Except.map, List.map_id]
    rfl
  unfold kFold
  simp only [show ¬ ((2 : ℤ) < 1) by norm_num, if_false]
  show List.mapM (fun i => (pairs xs).select (List.map (fun x => x == i) (foldLabels (pairs xs).nUnits 2 (Equiv.refl (Fin (pairs xs).nUnits))))) [0, 1] = _
  rw [hl]
  simp only [List.mapM_cons, List.mapM_nil, sel, filter_pairs0, filter_pairs1]
  simp [half]
  rfl

theorem pairs_fresh (stable : Bool) (xs : List β) {W : Type} {w : W} (s : ArmState Unit β ℝ) (hs : s.split = none) :
    addData .ok stable stillRng (pairs xs) (s, w) = (.ok (), { s with split := some [half (xs.map fun _ => 0), half xs] }, w) := by
  unfold addData
  rw [Py.bind_ok (show transformAndFold (α := ℝ) .ok stillRng (pairs xs) (s, w) = (.ok [half (xs.map fun _ => 0), half xs], s, w) from by
    show ((pairs xs).kFold 2 (Equiv.refl (Fin (pairs xs).nUnits)), s, w) = _
    rw [pairs_fold]), Py.bind_ok (Py.get_apply _)]
  dsimp only
  rw [hs]
  rfl

theorem pairs_more (xs ys : List β) {W : Type} {w : W} (s : ArmState Unit β ℝ) (hs : s.split = some [half (ys.map fun _ => 0), half ys]) :
    addData .ok true stillRng (pairs xs) (s, w) =
      (.ok (), { s with split := some [half ((ys ++ xs).map fun _ => 0), half (ys ++ xs)] }, w) := by
  unfold addData
  rw [Py.bind_ok (show transformAndFold (α := ℝ) .ok stillRng (pairs xs) (s, w) = (.ok [half (xs.map fun _ => 0), half xs], s, w) from by
    show ((pairs xs).kFold 2 (Equiv.refl (Fin (pairs xs).nUnits)), s, w) = _
    rw [pairs_fold]), Py.bind_ok (Py.get_apply _)]
  dsimp only
  rw [hs]
  simp only [Option.isSome_some, Bool.and_true, if_true]
  simp only [appendFolds, hs, half_append, List.map_append]

/-- the arm after feeding the pairs of `ys`, or a fresh arm -/
def Fed (ys : List β) (s : ArmState Unit β ℝ) : Prop :=
  (s.split = none ∧ ys = []) ∨ s.split = some [half (ys.map fun _ => 0), half ys]

/-- feeding more pairs succeeds, if an interval can be computed -/
theorem view_update {W : Type} {w : W} {f : List β → List ℝ} (hf : ∀ l, (f l).length = l.length) (cfg : SSConfig β ℝ) (ht : cfg.transform = .ok)
    (hst : cfg.stable = true) (δ : ℝ) (h0 : 0 < δ) (h1 : δ < 1) (ys xs : List β) (hne : ys ++ xs ≠ []) (s : ArmState Unit β ℝ) (hs : Fed ys s)
    (hiv : ∃ lo hi, IntervalOf cfg (viewEta f) realLib (.fin δ) (s.numPulled + 1) (half (ys ++ xs)) ()
      (Fl.mean (sqDev ((f (ys ++ xs)).map Fl.fin) (Fl.mean ((f (ys ++ xs)).map Fl.fin)))) (Fl.mean ((f (ys ++ xs)).map Fl.fin)) lo hi ()) :
    ∃ lo hi s', ssUpdate cfg (viewEta f) realLib stillRng (pairs xs) (.fin δ) (s, w) = (.ok (lo, hi), s', w) ∧
      s'.numPulled = s.numPulled + 1 ∧ Fed (ys ++ xs) s' ∧ EvaluatedOn (viewEta f) s' (f (ys ++ xs)) ∧ s'.ci = (some lo, some hi) := by
  obtain ⟨lo, hi, hiv⟩ := hiv
  have hadd : addData (α := ℝ) cfg.transform cfg.stable stillRng (pairs xs)
      ({ s with numPulled := s.numPulled + 1, delta := some (.fin δ) }, w) =
      (.ok (), { s with numPulled := s.numPulled + 1, delta := some (.fin δ), split := some [half ((ys ++ xs).map fun _ => 0), half (ys ++ xs)] }, w) := by
    rw [ht, hst]
    rcases hs with ⟨h, rfl⟩ | h
    · exact pairs_fresh true xs { s with numPulled := s.numPulled + 1, delta := some (.fin δ) } h
    · exact pairs_more xs ys { s with numPulled := s.numPulled + 1, delta := some (.fin δ) } h
  have hup := ssUpdate_after cfg (viewEta f) realLib stillRng (pairs xs) (.fin δ) ⟨δ, rfl, h0, h1⟩ s w w _ hadd
  have hv : (Fl.mean (sqDev ((f (ys ++ xs)).map Fl.fin) (Fl.mean ((f (ys ++ xs)).map Fl.fin)))).isNan = false := by
    have := var_fin (f (ys ++ xs)) (by rw [Ne, ← List.length_eq_zero_iff, hf, List.length_eq_zero_iff]; exact hne)
    unfold Fl.var at this
    unfold sqDev
    rw [this]; rfl
  have hest := estimate_fwd (W := W) (Estimated.enough (s := { s with numPulled := s.numPulled + 1, delta := some (.fin δ), split := some [half ((ys ++ xs).map fun _ => 0), half (ys ++ xs)] })
    [half ((ys ++ xs).map fun _ => 0), half (ys ++ xs)] (half ((ys ++ xs).map fun _ => 0)) () (half (ys ++ xs)) _ () _ () lo hi () rfl rfl rfl rfl rfl rfl rfl hv hiv) w
  have hall := hup.1.trans hest
  exact ⟨lo, hi, _, hall, rfl, Or.inr rfl, ⟨_, _, rfl, rfl, (half_nUnits _).trans (hf _).symm, rfl, rfl⟩, rfl⟩

/-- feeding more pairs succeeds, if an interval can be computed -/
theorem fed_update {W : Type} {w : W} (cfg : SSConfig ℝ ℝ) (ht : cfg.transform = .ok) (hst : cfg.stable = true) (δ : ℝ) (h0 : 0 < δ) (h1 : δ < 1)
    (ys xs : List ℝ) (hne : ys ++ xs ≠ []) (s : ArmState Unit ℝ ℝ) (hs : Fed ys s)
    (hiv : ∃ lo hi, IntervalOf cfg respEta realLib (.fin δ) (s.numPulled + 1) (half (ys ++ xs)) ()
      (Fl.mean (sqDev ((ys ++ xs).map Fl.fin) (Fl.mean ((ys ++ xs).map Fl.fin)))) (Fl.mean ((ys ++ xs).map Fl.fin)) lo hi ()) :
    ∃ lo hi s', ssUpdate cfg respEta realLib stillRng (pairs xs) (.fin δ) (s, w) = (.ok (lo, hi), s', w) ∧
      s'.numPulled = s.numPulled + 1 ∧ Fed (ys ++ xs) s' ∧ EvaluatedOn respEta s' (ys ++ xs) := by
  obtain ⟨lo, hi, s', h2, h3, h4, h5, -⟩ := view_update (w := w) (f := id) (fun _ => rfl) cfg ht hst δ h0 h1 ys xs hne s hs hiv
  exact ⟨lo, hi, s', h2, h3, h4, h5⟩

end Arm
end Verif
