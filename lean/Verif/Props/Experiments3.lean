import Verif.Props.Experiments2
import Verif.Props.Checks

/-!
# C96: the instances the experiments are run on, when some arms have too few units

An arm whose parameter could not be fitted has the value NaN.
-/

set_option linter.unusedSectionVars false
set_option linter.unusedSimpArgs false

namespace Verif
namespace PaperBandits
open Section5 Arm Paper Bandit Plotting
variable {R K F W M P : Type}

/-- a value that may be NaN -/
def orNan : Option ℝ → Fl ℝ
  | none => .nan
  | some x => .fin x

theorem perm_nan (xs : List (Option ℝ)) : ∃ k, (xs.map orNan).Perm ((xs.filterMap id).map Fl.fin ++ List.replicate k .nan) ∧ xs.length = (xs.filterMap id).length + k := by
  induction xs with
  | nil => exact ⟨0, by simp, rfl⟩
  | cons x xs ih =>
    obtain ⟨k, h, hk⟩ := ih
    cases x with
    | none =>
      refine ⟨k + 1, ?_, by simp [hk]; omega⟩
      rw [List.replicate_succ]
      exact (List.Perm.cons _ h).trans List.perm_middle.symm
    | some x => exact ⟨k, by simpa [orNan] using h, by simp [hk]; omega⟩

/-- NaNs are sorted to the end -/
theorem sorted_nan (xs : List (Option ℝ)) : ∃ k, sorted (xs.map orNan) = sorted ((xs.filterMap id).map Fl.fin) ++ List.replicate k .nan ∧ xs.length = (xs.filterMap id).length + k := by
  obtain ⟨k, h, hk⟩ := perm_nan xs
  refine ⟨k, ?_, hk⟩
  obtain ⟨ys, e, hp, hs⟩ := sorted_fin (xs.filterMap id)
  have hfin : ∀ a b : ℝ, Plotting.sortLe (Fl.fin a) (Fl.fin b) = true ↔ a ≤ b := fun a b => by
    simp only [Plotting.sortLe, Fl.le, Fl.lt, Fl.eq, Bool.or_eq_true, decide_eq_true_eq]
    exact le_iff_lt_or_eq.symm
  rw [e]
  refine List.Perm.eq_of_pairwise (le := fun x y => Plotting.sortLe x y = true) ?_ (sorted_pairwise _) ?_ ((sorted_perm _).trans (h.trans ((hp.symm.map _).append_right _)))
  · intro a b ha hb h1 h2
    obtain ⟨a, -, rfl⟩ := List.mem_map.1 ((sorted_perm _).subset ha)
    rcases List.mem_append.1 hb with hb | hb
    · obtain ⟨b, -, rfl⟩ := List.mem_map.1 hb
      cases a with
      | none => simp [orNan, Plotting.sortLe] at h1
      | some a => rw [orNan, le_antisymm ((hfin _ _).1 h1) ((hfin _ _).1 h2)]
    · obtain ⟨-, rfl⟩ := List.mem_replicate.1 hb
      cases a with
      | none => rfl
      | some a => simp [orNan, Plotting.sortLe] at h2
  · rw [List.pairwise_append]
    refine ⟨List.pairwise_map.2 (hs.imp fun h => (hfin _ _).2 h), ?_, ?_⟩
    · exact List.pairwise_replicate.2 (Or.inr rfl)
    · intro a _ b hb
      obtain ⟨-, rfl⟩ := List.mem_replicate.1 hb
      cases a <;> rfl

/-- **C96** Arms with the value NaN are ignored by the test for a clear gap; with fewer than two other values the instance is rejected. -/
theorem C96_clear_gap_nan (xs : List (Option ℝ)) (h2 : 2 ≤ xs.length) :
    (clearGap (xs.map orNan) = .ok true ↔ 2 ≤ (xs.filterMap id).length ∧ ∃ x ∈ xs.filterMap id, ∀ y ∈ (xs.filterMap id).erase x, x + 5 < y) ∧
    ∃ b, clearGap (xs.map orNan) = .ok b := by
  obtain ⟨k, e, hk⟩ := sorted_nan xs
  by_cases hl : 2 ≤ (xs.filterMap id).length
  · obtain ⟨h1, h3⟩ := C96_clear_gap (xs.filterMap id) hl
    have : clearGap (xs.map orNan) = clearGap ((xs.filterMap id).map Fl.fin) := by
      unfold clearGap
      rw [e]
      have hlen := (sorted_perm ((xs.filterMap id).map Fl.fin)).length_eq
      rw [List.length_map] at hlen
      generalize sorted ((xs.filterMap id).map Fl.fin) = l at hlen
      rcases l with _ | ⟨a, _ | ⟨b, r⟩⟩
      · rw [List.length_nil] at hlen; omega
      · rw [List.length_singleton] at hlen; omega
      · rfl
    rw [this]
    exact ⟨⟨fun h => ⟨hl, h1.1 h⟩, fun h => h1.2 h.2⟩, h3⟩
  · have : clearGap (xs.map orNan) = .ok false := by
      unfold clearGap
      rw [e]
      have hlen := (sorted_perm ((xs.filterMap id).map Fl.fin)).length_eq
      rw [List.length_map] at hlen
      generalize sorted ((xs.filterMap id).map Fl.fin) = l at hlen
      rcases l with _ | ⟨a, _ | ⟨b, r⟩⟩
      · rw [List.length_nil] at hlen
        obtain ⟨m, rfl⟩ : ∃ m, k = m + 2 := ⟨k - 2, by omega⟩
        rfl
      · rw [List.length_singleton] at hlen
        obtain ⟨m, rfl⟩ : ∃ m, k = m + 1 := ⟨k - 1, by omega⟩
        rfl
      · simp only [List.length_cons] at hlen; omega
    rw [this]
    exact ⟨⟨fun h => by simp at h, fun h => absurd h.1 hl⟩, _, rfl⟩

theorem erase_filterMap {n : ℕ} {x : ℕ → Option ℝ} {i : ℕ} {a : ℝ} (hi : i < n) (ha : x i = some a) :
    ((((List.range n).map x).filterMap id).erase a).Perm (((List.range n).erase i).filterMap x) := by
  have h1 := ((List.perm_cons_erase (List.mem_range.2 hi)).filterMap x).erase a
  rw [List.filterMap_cons_some ha, List.erase_cons_head] at h1
  rw [List.filterMap_map]
  exact h1

/-- The instance is clear: a finite value is more than 5 below every other finite value, of which there is at least one. -/
def ClearGap (n : ℕ) (x : ℕ → Option ℝ) : Prop :=
  ∃ i < n, ∃ a, x i = some a ∧ (∃ j < n, j ≠ i ∧ x j ≠ none) ∧ ∀ j < n, j ≠ i → ∀ b, x j = some b → a + 5 < b

theorem clearGap_iff {n : ℕ} (h2 : 2 ≤ n) (x : ℕ → Option ℝ) :
    (clearGap ((List.range n).map fun i => orNan (x i)) = .ok true ↔ ClearGap n x) ∧ ∃ b, clearGap ((List.range n).map fun i => orNan (x i)) = .ok b := by
  have hmap : ((List.range n).map fun i => orNan (x i)) = ((List.range n).map x).map orNan := by rw [List.map_map]; rfl
  rw [hmap]
  obtain ⟨hc, hb⟩ := C96_clear_gap_nan ((List.range n).map x) (by simpa using h2)
  refine ⟨hc.trans ?_, hb⟩
  have hmem : ∀ i y, y ∈ ((List.range n).erase i).filterMap x ↔ ∃ j < n, j ≠ i ∧ x j = some y := by
    intro i y
    simp only [List.mem_filterMap, List.nodup_range.mem_erase_iff, List.mem_range]
    exact ⟨fun ⟨j, ⟨h1, h2⟩, h3⟩ => ⟨j, h2, h1, h3⟩, fun ⟨j, h2, h1, h3⟩ => ⟨j, ⟨h1, h2⟩, h3⟩⟩
  constructor
  · rintro ⟨hl, a, ha, hall⟩
    rw [List.filterMap_map] at ha
    obtain ⟨i, hi, hia⟩ := List.mem_filterMap.1 ha
    have hi := List.mem_range.1 hi
    have hia : x i = some a := hia
    have hp := erase_filterMap hi hia
    have ha' : a ∈ ((List.range n).map x).filterMap id := by rw [List.filterMap_map]; exact ha
    refine ⟨i, hi, a, hia, ?_, fun j hj hji b hb => hall b (hp.symm.subset ((hmem _ _).2 ⟨j, hj, hji, hb⟩))⟩
    have hlen := hp.length_eq
    rw [List.length_erase_of_mem ha'] at hlen
    obtain ⟨y, hy⟩ := List.exists_mem_of_length_pos (l := ((List.range n).erase i).filterMap x) (by omega)
    obtain ⟨j, hj, hji, e⟩ := (hmem _ _).1 hy
    exact ⟨j, hj, hji, by simp [e]⟩
  · rintro ⟨i, hi, a, hia, ⟨j, hj, hji, hsome⟩, hall⟩
    have hp := erase_filterMap hi hia
    have ha' : a ∈ ((List.range n).map x).filterMap id := by
      rw [List.filterMap_map]; exact List.mem_filterMap.2 ⟨i, List.mem_range.2 hi, hia⟩
    refine ⟨?_, a, ha', fun y hy => ?_⟩
    · have hlen := hp.length_eq
      rw [List.length_erase_of_mem ha'] at hlen
      obtain ⟨b, hb⟩ := Option.ne_none_iff_exists'.1 hsome
      have := List.length_pos_of_mem ((hmem _ _).2 ⟨j, hj, hji, hb⟩)
      omega
    · obtain ⟨j, hj, hji, e⟩ := (hmem _ _).1 (hp.subset hy)
      exact hall j hj hji y e

/-- **C96** One pass of the loop over instances: the arms get one value each, from their reset parameters and in their order, and the instance is skipped unless one of
these values is more than 5 below all the others that are not NaN; otherwise there are `n_repetitions` counts if the pass completes. -/
theorem C96_instance (sk : Sklearn M P) (rng : Rng W ℝ) (choice choice2) (seed : Nat → W) (o : Obj M P) (fuel limit units reps : Nat) {ex : Example W M P} (h2 : 2 ≤ ex.arms.length)
    {w0 : W} {temp : ExpData (Cell ℝ)} {x : ℕ → Option ℝ} {st : ℕ → ArmState (Eta M P) (Cell ℝ) ℝ} {w : ℕ → W} (hgen : generate ex.scm 10000 w0 = (.ok temp, w 0))
    (h : ∀ i, i < ex.arms.length → gapValue (etaOps sk) rng temp (heapOf o ex.arms i) (Arm.reset (etaOps sk) (heapOf o ex.arms i).st, w i) = (.ok (orNan (x i)), (st i, w (i + 1)))) :
    (¬ ClearGap ex.arms.length x → instancePass sk rng choice choice2 seed o fuel limit units reps ex w0 = (.ok (some []), w ex.arms.length)) ∧
    (ClearGap ex.arms.length x →
      ∀ cs w', instancePass sk rng choice choice2 seed o fuel limit units reps ex w0 = (.ok (some cs), w') → cs.length = reps) := by
  obtain ⟨g, hg⟩ := gapLoop_values (etaOps sk) rng temp (heap := heapOf o ex.arms) (v := fun i => orNan (x i)) (st := st) (w := w) ex.arms.length 0 (heapOf o ex.arms)
    (fun i hi => by rw [Nat.zero_add]; exact h i hi) fun i _ => rfl
  rw [← List.range_eq_range', Nat.zero_add] at hg
  obtain ⟨hiff, b, hb⟩ := clearGap_iff h2 x
  unfold instancePass
  rw [hgen]
  dsimp only
  rw [hg]
  dsimp only
  refine ⟨fun hno => ?_, fun hyes cs w' he => ?_⟩
  · cases b
    · rw [hb]
    · exact absurd (hiff.1 hb) hno
  · rw [hiff.2 hyes] at he
    dsimp only at he
    generalize hr : repeats (objOps (etaOps sk) realLib rng) (envOf ex.scm choice choice2) seed ex fuel limit units 0 reps (g, w ex.arms.length) = r at he
    obtain ⟨r1, r2⟩ := r
    obtain ⟨rfl, -⟩ := Prod.mk.inj he
    exact repeats_length _ _ _ _ _ _ _ _ _ _ _ _ hr

theorem var_nan {us : List (Obs ℝ)} (h : us ≠ []) : Fl.var (us.map fun _ => (.nan : Fl ℝ)) = .nan := by
  obtain ⟨u, us, rfl⟩ := List.exists_cons_of_ne_nil h
  have hsum : ∀ l : List (Fl ℝ), Fl.nan ∈ l → Fl.mean l = .nan := fun l hl => by
    unfold Fl.mean Fl.sum
    rw [Fl.foldl_add_mem_nan _ hl]
    rfl
  unfold Fl.var
  refine hsum _ (List.mem_map.2 ⟨.nan, by simp, ?_⟩)
  rw [hsum _ (by simp)]
  rfl

theorem _root_.Verif.FrontDoor.score_unfitted (R : Predictor M ℝ) (s : FrontDoor M ℝ) (h : s.hasBeenFit = false) (us : List (Obs ℝ)) :
    FrontDoor.score R (Obs.dataset s.covDim us) s = (.ok (us.map fun _ => .nan), s) := by
  unfold FrontDoor.score FrontDoor.transform
  simp only [Py.bind_apply, Py.get_apply, Obs.dataset_nFeatures, ne_eq, not_true_eq_false, if_false, h, Bool.not_false, if_true, Py.pure_apply, Py.lift_apply]
  simp only [FrontDoor.phi, bind, Except.bind, Obs.dataset_rsp, Obs.dataset_nUnits, List.length_map, List.length_replicate, ne_eq, not_true_eq_false, if_false]
  refine Prod.ext (congrArg Except.ok ?_) rfl
  apply List.ext_getElem
  · simp [Param.vals]
  · intro i h1 h2
    simp [FrontDoor.phiUnit, Fl.sub, Fl.add, Fl.neg, Fl.mul, Fl.div]

/-- an arm whose parameter has not been fitted scores every unit NaN -/
theorem score_unfitted (sk : Sklearn M P) {k : Nat} {e : Eta M P} (he : EtaInv k e) (hn : (etaOps sk).hasEnough e = .ok false) (us : List (Obs ℝ)) :
    (etaOps sk).score e (Obs.dataset k us) = (.ok (us.map fun _ => .nan), e) := by
  rcases e with e | e
  · obtain rfl : e.covDim = k := he.dim
    have hf : e.hasBeenFit = false := Except.ok.inj hn
    have := FrontDoor.score_unfitted sk.ridge e hf us
    simp only [etaOps, sumEtaOps, FrontDoor.ops, this]
  · have hf : e.hasBeenFit = false := Except.ok.inj hn
    have := AIPW.C49_unfitted sk.ridge sk.logistic e hf k us
    simp only [etaOps, sumEtaOps, AIPW.ops, this]

/-- a new parameter is fitted by data with five units of each exposure, and by no other -/
theorem fit_new (sk : Sklearn M P) (hs : GoodSklearn sk) {a : ArmSpec ℝ} (ha : 1 ≤ a.nFeatures) {us : List (Obs ℝ)} (hne : us ≠ [])
    (hu : ∀ u ∈ us, u.z.length = a.nFeatures ∧ (u.x = .int 0 ∨ u.x = .int 1)) :
    ∃ e, (etaOps sk).fit ((etaOps sk).reset (newEta sk a)) (Obs.dataset a.nFeatures us) = (.ok (), e) ∧ EtaInv a.nFeatures e ∧
      ((etaOps sk).hasEnough e = .ok true ↔ 5 ≤ Obs.treated us ∧ 5 ≤ Obs.control us) := by
  have hd : GoodData a.nFeatures (.int 0) (.int 1) 1 (Obs.dataset a.nFeatures us) := ⟨us, rfl, List.length_pos_iff.2 hne, hu⟩
  obtain ⟨e, h1, h2, -⟩ := (etaOps_safe hs a.nFeatures).fit _ _ (etaInv_reset sk (etaInv_new sk a ha)) hd
  refine ⟨e, h1, h2, ?_⟩
  have hbin : ∀ u ∈ us, u.Binary := fun u hu' => by
    rcases (hu u hu').2 with e | e
    · exact Or.inl (by rw [Obs.xv, e]; simp [Cell.val])
    · exact Or.inr (by rw [Obs.xv, e]; simp [Cell.val])
  have hiff := Obs.tooFew_iff us hbin 5 a.nFeatures
  rw [show (5 ≤ Obs.treated us ∧ 5 ≤ Obs.control us) ↔ ¬ Param.tooFew 5 (Obs.dataset a.nFeatures us).nUnits (us.map Obs.x) = true by
    rw [hiff, not_not]; norm_cast]
  unfold newEta at h1
  cases hb : Param.tooFew (5 : Int) (Obs.dataset a.nFeatures us).nUnits (us.map Obs.x) with
  | true =>
    cases hk : a.eta with
    | frontDoor =>
      rw [hk] at h1
      have := FrontDoor.fit_few sk.ridge us (FrontDoor.reset sk.fdRidge0 (FrontDoor.new sk.fdRidge0 a.nFeatures 5 (1 / 4) 10)) hb
      have h1' : e = .inl _ := (congrArg Prod.snd h1).symm.trans (congrArg (Sum.inl ∘ Prod.snd) this)
      subst h1'
      simp [etaOps, sumEtaOps, FrontDoor.ops, FrontDoor.reset]
    | aipw =>
      rw [hk] at h1
      have := AIPW.fit_few sk.ridge sk.logistic us (AIPW.reset sk.ridge sk.logistic (AIPW.new a.nFeatures sk.ridge0 sk.logistic0 5 (1 / 4))) hb
      have h1' : e = .inr _ := (congrArg Prod.snd h1).symm.trans (congrArg (Sum.inr ∘ Prod.snd) this)
      subst h1'
      simp [etaOps, sumEtaOps, AIPW.ops, AIPW.reset]
  | false =>
    cases hk : a.eta with
    | frontDoor =>
      rw [hk] at h1
      have := FrontDoor.fit_enough sk.ridge us (FrontDoor.reset sk.fdRidge0 (FrontDoor.new sk.fdRidge0 a.nFeatures 5 (1 / 4) 10)) hb
      have key : ∀ r, FrontDoor.fit sk.ridge (Obs.dataset a.nFeatures us) (FrontDoor.reset sk.fdRidge0 (FrontDoor.new sk.fdRidge0 a.nFeatures 5 (1 / 4) 10)) = r →
          r.1 = .ok () → r.2.hasBeenFit = true := by
        rintro r rfl
        intro h
        have h' := h
        erw [this] at h' ⊢
        split at h'
        · simp at h'
        · split at h'
          · simp at h'
          · rfl
      have hf := key _ rfl (congrArg Prod.fst h1)
      obtain rfl : e = .inl _ := (congrArg Prod.snd h1).symm
      simpa [etaOps, sumEtaOps, FrontDoor.ops] using hf
    | aipw =>
      rw [hk] at h1
      have := AIPW.fit_enough sk.ridge sk.logistic us (AIPW.reset sk.ridge sk.logistic (AIPW.new a.nFeatures sk.ridge0 sk.logistic0 5 (1 / 4))) hb
      have key : ∀ r, AIPW.fit sk.ridge sk.logistic (Obs.dataset a.nFeatures us) (AIPW.reset sk.ridge sk.logistic (AIPW.new a.nFeatures sk.ridge0 sk.logistic0 5 (1 / 4))) = r →
          r.1 = .ok () → r.2.hasBeenFit = true := by
        rintro r rfl
        intro h
        have h' := h
        erw [this] at h' ⊢
        split at h'
        · simp at h'
        · split at h'
          · simp at h'
          · rfl
      have hf := key _ rfl (congrArg Prod.fst h1)
      obtain rfl : e = .inr _ := (congrArg Prod.snd h1).symm
      simpa [etaOps, sumEtaOps, AIPW.ops] using hf

/-- **C96** In the examples of Section 5 every arm gets a value: NaN if the first half of its view of the data has fewer than five units of some exposure, and a finite
one - not negative - otherwise. -/
theorem C96_values {sk : Sklearn M P} {alg : CIAlgorithm} {subG : Fl ℝ} {specs : List (ArmSpec ℝ)} {k : Nat} {l : ℝ} {units : Nat} {ex : Example W M P}
    (h : Runnable sk alg subG specs k l units ex) (rng : Rng W ℝ) (o : Obj M P) (w0 : W) :
    ∃ (temp : ExpData (Cell ℝ)) (w : ℕ → W) (x : ℕ → Option ℝ) (st : ℕ → ArmState (Eta M P) (Cell ℝ) ℝ), generate ex.scm 10000 w0 = (.ok temp, w 0) ∧ ∀ i (a : ArmSpec ℝ), specs[i]? = some a →
      gapValue (etaOps sk) rng temp (heapOf o ex.arms i) (Arm.reset (etaOps sk) (heapOf o ex.arms i).st, w i) = (.ok (orNan (x i)), (st i, w (i + 1))) ∧
      ∃ t us vs, Paper.transform a temp = .ok t ∧ t.kFold 2 (rng.perm t.nUnits (w i)).1 = .ok [Obs.dataset a.nFeatures us, Obs.dataset a.nFeatures vs] ∧
        (x i = none ↔ ¬ (5 ≤ Obs.treated us ∧ 5 ≤ Obs.control us)) ∧ ∀ y, x i = some y → 0 ≤ y := by
  obtain ⟨smp, w1, e1, e2⟩ := h.source 10000 (by norm_num) w0
  have hd := toData_good e2
  have key : ∀ (w : W) (i : ℕ), ∃ (y : Option ℝ) (s : ArmState (Eta M P) (Cell ℝ) ℝ) (w' : W), ∀ a, specs[i]? = some a →
      gapValue (etaOps sk) rng (toData smp) (heapOf o ex.arms i) (Arm.reset (etaOps sk) (heapOf o ex.arms i).st, w) = (.ok (orNan y), (s, w')) ∧
      ∃ t us vs, Paper.transform a (toData smp) = .ok t ∧ t.kFold 2 (rng.perm t.nUnits w).1 = .ok [Obs.dataset a.nFeatures us, Obs.dataset a.nFeatures vs] ∧
        (y = none ↔ ¬ (5 ≤ Obs.treated us ∧ 5 ≤ Obs.control us)) ∧ ∀ z, y = some z → 0 ≤ z := by
    intro w i
    cases hi : specs[i]? with
    | none => exact ⟨none, (heapOf o ex.arms i).st, w, fun a ha => by simp at ha⟩
    | some a =>
      have ha := h.good a (List.mem_of_getElem? hi)
      obtain ⟨t, ht, hn, hg⟩ := transform_good a ha.coords hd
      rw [← ha.dim, goodData_iff] at hg
      obtain ⟨g1, g2, g3, g4⟩ := hg
      obtain ⟨f0, f1, hf, w0', w1', k0, k1, n0, n1, u0, u1⟩ := ExpData.kFold_halves t g1 (rng.perm t.nUnits w).1
      have hg0 : GoodData a.nFeatures (.int 0) (.int 1) 1 f0 := goodData_iff.2 ⟨w0', g2.trans k0, by omega, fun p hp => g4 p (u0 p hp)⟩
      have hg1 : GoodData a.nFeatures (.int 0) (.int 1) 1 f1 := goodData_iff.2 ⟨w1', g2.trans k1, by omega, fun p hp => g4 p (u1 p hp)⟩
      have hg1' := hg1
      obtain ⟨us, rfl, lus, hus⟩ := hg0
      obtain ⟨vs, rfl, lvs, hvs⟩ := hg1
      have neu : us ≠ [] := by rintro rfl; simp at lus
      have nev : vs ≠ [] := by rintro rfl; simp at lvs
      obtain ⟨e, he1, he2, he3⟩ := fit_new sk h.skl ha.pos neu hus
      have hobj : heapOf o ex.arms i = newArm sk alg subG a := by
        obtain ⟨hlt, rfl⟩ := List.getElem?_eq_some_iff.1 hi
        simp [heapOf, h.arms_eq, hlt]
      have hl : ∀ (f : ExpData (Cell ℝ)) (s : ArmState (Eta M P) (Cell ℝ) ℝ × W), Py.lift (.ok f) s = (.ok f, s) := fun _ _ => rfl
      have hgap : ∀ sc e', (etaOps sk).score e (Obs.dataset a.nFeatures vs) = (.ok sc, e') →
          gapValue (etaOps sk) rng (toData smp) (heapOf o ex.arms i) (Arm.reset (etaOps sk) (heapOf o ex.arms i).st, w) =
            (.ok ((Fl.fin a.cost).mul (Fl.var sc)), ({ Arm.reset (etaOps sk) (newArm sk alg subG a).st with eta := e' }, (rng.perm t.nUnits w).2)) := by
        intro sc e' hsc
        have hfit : (etaOps sk).fit (Arm.reset (etaOps sk) (newArm sk alg subG a).st).eta (Obs.dataset a.nFeatures us) = (.ok (), e) := he1
        have htr : (newArm sk alg subG a).cfg.transform = Paper.transform a := rfl
        have hcost : (newArm sk alg subG a).cost = .fin a.cost := rfl
        rw [hobj]
        unfold gapValue
        simp only [Py.bind_apply, transformAndFold, htr, ht, hf, List.getElem?_cons_zero, List.getElem?_cons_succ, hl, etaFit, etaScore, hfit, hsc, Py.pure_apply, hcost]
      by_cases hen : 5 ≤ Obs.treated us ∧ 5 ≤ Obs.control us
      · obtain ⟨xs, e', hsc, hxs, -⟩ := (etaOps_safe h.skl a.nFeatures).score _ _ he2 hg1' (he3.2 hen)
        have := hgap _ _ hsc
        rw [var_fin xs hxs] at this
        refine ⟨some (a.cost * pvar xs), { Arm.reset (etaOps sk) (newArm sk alg subG a).st with eta := e' }, (rng.perm t.nUnits w).2, fun a' ha' => ?_⟩
        obtain rfl := Option.some.inj ha'
        exact ⟨this, t, us, vs, ht, hf, by simp [hen], fun z hz => by cases hz; exact mul_nonneg ha.cost.le (pvar_nonneg _)⟩
      · have hno : (etaOps sk).hasEnough e = .ok false := by
          obtain ⟨b, hb⟩ := (etaOps_safe h.skl a.nFeatures).enough e
          cases b with
          | false => exact hb
          | true => exact absurd (he3.1 hb) hen
        have := hgap _ _ (score_unfitted sk he2 hno vs)
        rw [var_nan nev] at this
        refine ⟨none, { Arm.reset (etaOps sk) (newArm sk alg subG a).st with eta := e }, (rng.perm t.nUnits w).2, fun a' ha' => ?_⟩
        obtain rfl := Option.some.inj ha'
        exact ⟨this, t, us, vs, ht, hf, by simp [hen], fun z hz => by simp at hz⟩
  choose y s w' hall using key
  let ws : ℕ → W := fun i => Nat.rec w1 (fun i w => w' w i) i
  refine ⟨toData smp, ws, fun i => y (ws i) i, fun i => s (ws i) i, by simp only [generate, e1]; rfl, fun i a hi => hall (ws i) i a hi⟩

/-- non-vacuity of `C96_clear_gap_nan`: the value NaN does not prevent the instance from being accepted, wherever it stands -/
example : clearGap ([none, some 20, some 3].map orNan) = .ok true ∧ clearGap ([some 3, none].map orNan) ≠ .ok true := by
  refine ⟨((C96_clear_gap_nan _ (by simp)).1).2 ⟨by simp, 3, by simp, ?_⟩, fun h => ?_⟩
  · intro y hy
    simp only [List.filterMap_cons, id_eq, List.filterMap_nil] at hy
    rw [List.erase_cons_tail (by norm_num), List.erase_cons_head] at hy
    simp only [List.mem_singleton] at hy
    rw [hy]; norm_num
  · have := (((C96_clear_gap_nan _ (by simp)).1).1 h).1
    simp at this

/-- non-vacuity of `C96_values` and `C96_instance`: an example of Section 5.1 with two paths and five arms -/
example : ∃ ex w0, example51 flipNoise flipGens safeSklearn [2, 1, 2] [0, 3, 1] 1 2 3 2 (.fin 1000) 100 false 0 ((), true) = some (.ok ex, w0) ∧
    ∀ (rng : Rng Bool ℝ) (choice choice2) (seed : Nat → Bool) (o : Obj (Option ℝ) Unit) (fuel limit units reps : Nat) (w : Bool), ∃ (temp : ExpData (Cell ℝ)) (x : ℕ → Option ℝ) (st : ℕ → ArmState (Eta (Option ℝ) Unit) (Cell ℝ) ℝ) (ws : ℕ → Bool),
      (∀ i < ex.arms.length, gapValue (etaOps safeSklearn) rng temp (heapOf o ex.arms i) (Arm.reset (etaOps safeSklearn) (heapOf o ex.arms i).st, ws i) =
        (.ok (orNan (x i)), (st i, ws (i + 1)))) ∧
      (¬ ClearGap ex.arms.length x → instancePass safeSklearn rng choice choice2 seed o fuel limit units reps ex w = (.ok (some []), ws ex.arms.length)) := by
  obtain ⟨ex, w0, e, hw⟩ := flip_example 100 (by norm_num)
  obtain ⟨subG, specs, hR⟩ := runnable51 flipNoise_good safeSklearn_good (demo_args 100 (by norm_num)) e hw
  refine ⟨ex, w0, e, fun rng choice choice2 seed o fuel limit units reps w => ?_⟩
  obtain ⟨temp, ws, x, st, h1, h2⟩ := C96_values hR rng o w
  have hlen : ex.arms.length = specs.length := by rw [hR.arms_eq, List.length_map]
  have h3 : ∀ i < ex.arms.length, _ := fun i hi => (h2 i _ (List.getElem?_eq_getElem (hlen ▸ hi))).1
  exact ⟨temp, x, st, ws, h3, (C96_instance safeSklearn rng choice choice2 seed o fuel limit units reps (by rw [hlen]; exact hR.two) h1 h3).1⟩

end PaperBandits
end Verif
