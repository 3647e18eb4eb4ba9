import Verif.Lemmas.Tabular2
import Mathlib.Algebra.Order.Ring.Rat

/-!
# C10 – C14: `TabularCPD`
-/

set_option linter.unusedSectionVars false

namespace Verif
namespace Tab
variable {KX KZ α : Type} [DecidableEq KX] [DecidableEq KZ] [Field α] [LinearOrder α] [IsStrictOrderedRing α]

/-- a running example: two values of `x`, three of `z`, default ratio 20 -/
def demoData : List (Nat × Nat) := [(0, 3), (0, 4), (0, 5), (1, 3), (1, 3)]

/-! ## C10 -/

/-- **C10 (partial)**: after a first fit with `min_ratio_to_uniform ≥ 1`, the predicted probabilities of
an observed `x` over the `z` support sum to one *unless* the row is degenerate, i.e. some `z` has
frequency above `1 - min_prob`; then they sum to `1 + (m - 2) min_prob`, `m` the support size.
Missing: the claim itself is false for degenerate rows with `m ≠ 2` (`C10_rows_sum_violated`). -/
theorem C10_rows_sum_partial (ratio : α) (hr : 1 ≤ ratio) (data : List (KX × KZ)) (hne : data ≠ [])
    (t' : Tab KX KZ α)
    (hfit : (new ratio : Tab KX KZ α).fit (data.map Prod.fst) (data.map Prod.snd) = (.ok (), t'))
    (x : KX) (hx : x ∈ data.map Prod.fst) (zs : List KZ) (hzs : Enumerates zs (data.map Prod.snd)) :
    ((∀ z ∈ zs, condFreq α data x z ≤ 1 - 1 / (zs.length : α) / ratio) →
      (t'.predict (zs.map fun z => (x, z))).1.sum = 1) ∧
    ((∃ z ∈ zs, 1 - 1 / (zs.length : α) / ratio < condFreq α data x z) →
      (t'.predict (zs.map fun z => (x, z))).1.sum = 1 + ((zs.length : α) - 2) * (1 / (zs.length : α) / ratio)) := by
  have hm : 1 ≤ zs.length := by
    obtain ⟨q, data', rfl⟩ := List.exists_cons_of_ne_nil hne
    exact List.length_pos_iff.mpr (List.ne_nil_of_mem ((hzs.2 q.2).mpr (by simp)))
  obtain ⟨b1, b2⟩ := mp_bounds ratio hr zs.length hm
  have hcell := row_cells hr hne hfit hx hzs
  have hrow : (t'.predict (zs.map fun z => (x, z))).1 = zs.map (adj (1 / (zs.length : α) / ratio) zs (condFreq α data x)) := by
    rw [predict_row]
    exact List.map_congr_left hcell
  rw [hrow]
  have hsum := condFreq_sum (α := α) data x hx zs hzs
  constructor
  · intro hh
    exact (sum_adj_no_high _ zs _ hsum b2 hh).1
  · rintro ⟨z0, hz0, hh⟩
    refine sum_adj_high _ zs hzs.1 _ (fun z _ => condFreq_nonneg data x z) hsum z0 hz0 hh ?_
    -- the degenerate entry is not below the floor
    by_contra hlt
    rw [not_le] at hlt
    have hmp : (1 : α) < 2 * (1 / (zs.length : α) / ratio) := by linarith
    have hm1 : zs.length = 1 := by
      by_contra hne1
      have h2 : 2 ≤ zs.length := by omega
      have h2' : (2 : α) ≤ zs.length := by exact_mod_cast h2
      nlinarith
    obtain ⟨w, hw⟩ := List.length_eq_one_iff.mp hm1
    rw [hw] at hz0 hsum
    simp only [List.mem_singleton] at hz0
    subst hz0
    simp only [List.map_cons, List.map_nil, List.sum_cons, List.sum_nil, add_zero] at hsum
    rw [hm1] at hlt b2
    rw [hsum] at hlt
    simp only [Nat.cast_one, mul_one] at b2 hlt
    exact absurd hlt (not_lt.mpr b2)

/-- **C10 is violated**: with the default ratio 20, data in which `x = 1` always comes with `z = 3` while
`z` takes three values gives a row summing to 61/60. -/
theorem C10_rows_sum_violated :
    ∃ t' : Tab Nat Nat ℚ, (new 20 : Tab Nat Nat ℚ).fit (demoData.map Prod.fst) (demoData.map Prod.snd) = (.ok (), t') ∧
      (t'.predict [(1, 3), (1, 4), (1, 5)]).1.sum = 61 / 60 ∧ t'.zValues = [3, 4, 5] ∧ t'.xValues = [0, 1] :=
  ⟨((new 20 : Tab Nat Nat ℚ).fit (demoData.map Prod.fst) (demoData.map Prod.snd)).2, by decide +kernel,
    by decide +kernel, by decide +kernel, by decide +kernel⟩

example : (∀ z ∈ [3, 4, 5], condFreq ℚ demoData 0 z ≤ 1 - 1 / (3 : ℚ) / 20) ∧ Enumerates [3, 4, 5] (demoData.map Prod.snd) ∧
    (1 : ℚ) - 1 / 3 / 20 < condFreq ℚ demoData 1 3 := by
  refine ⟨by decide +kernel, ⟨by decide, fun z => ?_⟩, by decide +kernel⟩
  simp [demoData]
  tauto

/-! ## C11 -/

/-- **C11 (partial)**: after a first fit with ratio ≥ 1 every predicted probability in the support is at
most `1 - min_prob` when at least two `z` values were seen, and all probabilities of a row are at least
`min_prob` if the support has two values or if no frequency of the row lies below the floor.
Missing: the lower bound in general, which is false (`C11_floor_violated`). -/
theorem C11_floor_partial (ratio : α) (hr : 1 ≤ ratio) (data : List (KX × KZ)) (hne : data ≠ [])
    (t' : Tab KX KZ α)
    (hfit : (new ratio : Tab KX KZ α).fit (data.map Prod.fst) (data.map Prod.snd) = (.ok (), t'))
    (x : KX) (hx : x ∈ data.map Prod.fst) (zs : List KZ) (hzs : Enumerates zs (data.map Prod.snd))
    (hm : 2 ≤ zs.length) :
    (∀ z ∈ zs, ∀ p, (t'.predict [(x, z)]).1 = [p] → p ≤ 1 - 1 / (zs.length : α) / ratio) ∧
    ((zs.length = 2 ∨ ∀ z ∈ zs, 1 / (zs.length : α) / ratio ≤ condFreq α data x z) →
      ∀ z ∈ zs, ∀ p, (t'.predict [(x, z)]).1 = [p] → 1 / (zs.length : α) / ratio ≤ p) := by
  obtain ⟨b1, b2⟩ := mp_bounds ratio hr zs.length (by omega)
  have hcell := row_cells hr hne hfit hx hzs
  have hp1 : ∀ z p, (t'.predict [(x, z)]).1 = [p] → t'.cell x z = p := by
    intro z p h
    rw [(predict_eq _ t').1] at h
    simpa using h
  have hsum := condFreq_sum (α := α) data x hx zs hzs
  have hnn : ∀ z ∈ zs, 0 ≤ condFreq α data x z := fun z _ => condFreq_nonneg data x z
  generalize condFreq α data x = P at *
  have hm' : (2 : α) ≤ zs.length := by exact_mod_cast hm
  have hhalf : 2 * (1 / (zs.length : α) / ratio) ≤ 1 := by nlinarith
  generalize hmpdef : 1 / (zs.length : α) / ratio = mp at *
  have hviol : ∀ z, 0 ≤ viol mp (P z) := by
    intro z
    simp only [viol]
    split
    · linarith
    · split
      · linarith
      · exact le_refl _
  have hV : 0 ≤ (zs.map fun z => viol mp (P z)).sum := by
    apply List.sum_nonneg
    intro v hv
    obtain ⟨z, _, rfl⟩ := List.mem_map.mp hv
    exact hviol z
  constructor
  · intro z hz p hp
    rw [← hp1 z p hp, hcell z hz]
    simp only [adj]
    split
    · rename_i hok
      simp only [okB, Bool.not_eq_true', Bool.or_eq_false_iff, decide_eq_false_iff_not, not_lt, gt_iff_lt] at hok
      have : 0 ≤ (zs.map fun z => viol mp (P z)).sum / ((zs.filter fun z => okB mp (P z)).length : α) := by positivity
      linarith [hok.2]
    · simp only [clip]
      split
      · linarith
      · split
        · exact le_refl _
        · rename_i h; exact not_lt.mp h
  · intro hcase z hz p hp
    rw [← hp1 z p hp, hcell z hz]
    simp only [adj]
    split
    · rename_i hok
      have hokz := hok
      simp only [okB, Bool.not_eq_true', Bool.or_eq_false_iff, decide_eq_false_iff_not, not_lt, gt_iff_lt] at hok
      -- in both cases nothing violates the bounds
      have hzero : ∀ w ∈ zs, viol mp (P w) = 0 := by
        rcases hcase with h2 | hfl
        · intro w hw
          by_cases hwz : w = z
          · subst hwz; simp [viol, not_lt.mpr hok.1, not_lt.mpr hok.2]
          · -- two elements z, w with P z + P w = 1
            have hperm := List.perm_cons_erase hz
            have h1 : P z + ((zs.erase z).map P).sum = 1 := by
              rw [← hsum, (hperm.map P).sum_eq, List.map_cons, List.sum_cons]
            have hl1 : (zs.erase z).length = 1 := by rw [List.length_erase_of_mem hz, h2]
            obtain ⟨v, hv⟩ := List.length_eq_one_iff.mp hl1
            have hwv : w = v := by
              have : w ∈ zs.erase z := (List.mem_erase_of_ne hwz).mpr hw
              rw [hv] at this; simpa using this
            rw [hv, ← hwv] at h1
            simp at h1
            have g1 : ¬ P w < mp := by rw [not_lt]; linarith [hok.2]
            have g2 : ¬ P w > 1 - mp := by rw [gt_iff_lt, not_lt]; linarith [hok.1]
            simp [viol, g1, g2]
        · intro w hw
          have g1 : ¬ P w < mp := not_lt.mpr (hfl w hw)
          have g2 : ¬ P w > 1 - mp := by
            intro hgt
            obtain ⟨v, hv, hvw⟩ : ∃ v ∈ zs, v ≠ w := by
              by_contra hcon
              push Not at hcon
              have : zs.length ≤ 1 := by
                have := List.Nodup.length_le_of_subset hzs.1 (l₂ := [w]) (fun y hy => by simp [hcon y hy])
                simpa using this
              omega
            exact absurd (hfl v hv) (not_le.mpr (others_low mp zs P hnn hsum w hw hgt v hv hvw))
          simp [viol, g1, g2]
      have hs0 : (zs.map fun z => viol mp (P z)).sum = 0 := by
        apply List.sum_eq_zero
        intro v hv
        obtain ⟨w, hw, rfl⟩ := List.mem_map.mp hv
        exact hzero w hw
      rw [hs0, zero_div, sub_zero]
      exact hok.1
    · simp only [clip]
      split
      · exact le_refl _
      · split
        · linarith
        · rename_i h _; exact not_lt.mp h

/-- **C11 is violated**: ten observations over five `z` values (one of them dominant) with ratio 2 give a
*negative* predicted probability although `min_prob` is 1/10. -/
theorem C11_floor_violated :
    ∃ data : List (Nat × Nat), ∃ t' : Tab Nat Nat ℚ,
      (new 2 : Tab Nat Nat ℚ).fit (data.map Prod.fst) (data.map Prod.snd) = (.ok (), t') ∧
      t'.minProb = some (1 / 10) ∧ (0, 0) ∈ data ∧ (t'.predict [(0, 0)]).1 = [-1 / 20] := by
  refine ⟨(0, 0) :: (List.replicate 9 (0, 4)) ++ [(1, 1), (1, 2), (1, 3)],
    ((new 2 : Tab Nat Nat ℚ).fit (((0, 0) :: (List.replicate 9 (0, 4)) ++ [(1, 1), (1, 2), (1, 3)] : List (Nat × Nat)).map Prod.fst)
      (((0, 0) :: (List.replicate 9 (0, 4)) ++ [(1, 1), (1, 2), (1, 3)] : List (Nat × Nat)).map Prod.snd)).2, ?_, ?_, ?_, ?_⟩ <;> decide +kernel

/-- The same happens with ratio 10 and fifty observations: `min_prob = 1/50`, predicted `-1/100`. -/
theorem C11_floor_ratio_ten_violated :
    ∃ data : List (Nat × Nat), ∃ t' : Tab Nat Nat ℚ,
      (new 10 : Tab Nat Nat ℚ).fit (data.map Prod.fst) (data.map Prod.snd) = (.ok (), t') ∧
      t'.minProb = some (1 / 50) ∧ (0, 0) ∈ data ∧ (t'.predict [(0, 0)]).1 = [-1 / 100] := by
  refine ⟨(0, 0) :: (List.replicate 49 (0, 4)) ++ [(1, 1), (1, 2), (1, 3)],
    ((new 10 : Tab Nat Nat ℚ).fit (((0, 0) :: (List.replicate 49 (0, 4)) ++ [(1, 1), (1, 2), (1, 3)] : List (Nat × Nat)).map Prod.fst)
      (((0, 0) :: (List.replicate 49 (0, 4)) ++ [(1, 1), (1, 2), (1, 3)] : List (Nat × Nat)).map Prod.snd)).2, ?_, ?_, ?_, ?_⟩ <;> decide +kernel

example : Enumerates [0, 1] (([(0, 0), (0, 1), (0, 1)] : List (Nat × Nat)).map Prod.snd) ∧
    ∃ t' : Tab Nat Nat ℚ, (new 1 : Tab Nat Nat ℚ).fit [0, 0, 0] [0, 1, 1] = (.ok (), t') ∧
      (t'.predict [(0, 0), (0, 1)]).1 = [1 / 2, 1 / 2] := by
  refine ⟨⟨by decide, fun z => by simp⟩, ((new 1 : Tab Nat Nat ℚ).fit [0, 0, 0] [0, 1, 1]).2, by decide +kernel, by decide +kernel⟩

/-! ## C12 -/

/-- **C12** `predict` returns one number per pair, and predicting changes no later prediction, whatever
was asked before (the inserted default keys are invisible). -/
theorem C12_predict_pure (t : Tab KX KZ α) (queries : List (List (KX × KZ))) (q : List (KX × KZ)) :
    (t.predict q).1.length = q.length ∧
    ((queries.foldl (fun t l => (t.predict l).2) t).predict q).1 = (t.predict q).1 := by
  constructor
  · rw [(predict_eq q t).1, List.length_map]
  · have : ∀ x z, (queries.foldl (fun t l => (t.predict l).2) t).cell x z = t.cell x z := by
      induction queries generalizing t with
      | nil => intro x z; rfl
      | cons l queries ih =>
        intro x z
        rw [List.foldl_cons, ih, (predict_eq l t).2]
    rw [(predict_eq q _).1, (predict_eq q t).1]
    apply List.map_congr_left
    intro p _
    exact this _ _

/-- **C12** predictions after a first fit are zero for every pair whose `x` or `z` was never observed,
also after any number of other predictions. -/
theorem C12_zero_off_support (ratio : α) (hr : ratio ≠ 0) (data : List (KX × KZ)) (hne : data ≠ [])
    (t' : Tab KX KZ α)
    (hfit : (new ratio : Tab KX KZ α).fit (data.map Prod.fst) (data.map Prod.snd) = (.ok (), t'))
    (queries : List (List (KX × KZ))) (x : KX) (z : KZ)
    (h : x ∉ data.map Prod.fst ∨ z ∉ data.map Prod.snd) :
    ((queries.foldl (fun t l => (t.predict l).2) t').predict [(x, z)]).1 = [0] := by
  rw [(C12_predict_pure t' queries [(x, z)]).2, (predict_eq _ t').1]
  obtain ⟨t1, h1, h2, h3, h4, h5, h6⟩ := firstFit ratio hr data hne
  rw [hfit] at h1
  obtain rfl := (Prod.mk.inj h1).2
  simp only [List.map_cons, List.map_nil]
  rw [h5, if_neg (by tauto)]

example : ∃ t' : Tab Nat Nat ℚ, (new 20 : Tab Nat Nat ℚ).fit (demoData.map Prod.fst) (demoData.map Prod.snd) = (.ok (), t') ∧
    (t'.predict [(7, 3), (0, 9), (0, 3)]).1 = [0, 0, 1 / 3] ∧ (t'.predict [(7, 3)]).2 ≠ t' :=
  ⟨((new 20 : Tab Nat Nat ℚ).fit (demoData.map Prod.fst) (demoData.map Prod.snd)).2, by decide +kernel, by decide +kernel, by decide +kernel⟩

/-! ## C13 -/

/-- **C13 is violated (stale support)**: refitting keeps old `z` values, so the support and the
predictions differ from those of a fresh table fitted to the second dataset alone. -/
theorem C13_refit_violated :
    ∃ t1 t2 f : Tab Nat Nat ℚ,
      (new 2 : Tab Nat Nat ℚ).fit [0, 0] [5, 6] = (.ok (), t1) ∧ t1.fit [0, 0, 0] [7, 8, 8] = (.ok (), t2) ∧
      (new 2 : Tab Nat Nat ℚ).fit [0, 0, 0] [7, 8, 8] = (.ok (), f) ∧
      t2.supportSize = 4 ∧ f.supportSize = 2 ∧
      (t2.predict [(0, 5), (0, 7)]).1 ≠ (f.predict [(0, 5), (0, 7)]).1 :=
  ⟨((new 2 : Tab Nat Nat ℚ).fit [0, 0] [5, 6]).2, (((new 2 : Tab Nat Nat ℚ).fit [0, 0] [5, 6]).2.fit [0, 0, 0] [7, 8, 8]).2,
    ((new 2 : Tab Nat Nat ℚ).fit [0, 0, 0] [7, 8, 8]).2, by decide +kernel, by decide +kernel, by decide +kernel,
    by decide +kernel, by decide +kernel, by decide +kernel⟩

/-- **C13 is violated (crash)**: refitting *any* fitted table on data in which a previously seen `x` does
not occur raises `ZeroDivisionError`, while a fresh table would fit that data. -/
theorem C13_refit_crash_violated (ratio : α) (hr : ratio ≠ 0) (data1 data2 : List (KX × KZ)) (hne : data1 ≠ [])
    (t1 : Tab KX KZ α)
    (hfit : (new ratio : Tab KX KZ α).fit (data1.map Prod.fst) (data1.map Prod.snd) = (.ok (), t1))
    (x : KX) (hx1 : x ∈ data1.map Prod.fst) (hx2 : x ∉ data2.map Prod.fst) :
    (t1.fit (data2.map Prod.fst) (data2.map Prod.snd)).1 = .error .zeroDivisionError := by
  obtain ⟨t', h1, h2, h3, h4, h5, h6, h7, h8⟩ := fit_spec (new ratio : Tab KX KZ α) (by simp [new]) (by simp [new]) data1 hr hne (by simp [new])
  rw [hfit] at h1
  obtain rfl := (Prod.mk.inj h1).2
  refine fit_stale_x_fails t1 ?_ ?_ data2 (by rw [h3]; exact hr) x ?_ hx2 ?_
  · rw [h5]; exact nodup_mergeKeys _ _ (by simp [new])
  · rw [h4]; exact nodup_mergeKeys _ _ (by simp [new])
  · rw [h5, mem_mergeKeys]; exact Or.inr hx1
  · obtain ⟨q, data', rfl⟩ := List.exists_cons_of_ne_nil hne
    apply List.ne_nil_of_mem (a := q.2)
    rw [h4, mem_mergeKeys]; simp

/-- **C13 (partial)**: if the second dataset covers all previously seen values of `x` and `z`, a refit
succeeds and gives the same supports and the same predictions as a fresh fit.  Missing: data not covering
the old values, where the claim is false. -/
theorem C13_refit_partial (ratio : α) (hr : ratio ≠ 0) (data1 data2 : List (KX × KZ)) (hne1 : data1 ≠ [])
    (hne2 : data2 ≠ []) (t1 : Tab KX KZ α)
    (hfit : (new ratio : Tab KX KZ α).fit (data1.map Prod.fst) (data1.map Prod.snd) = (.ok (), t1))
    (hx : ∀ x ∈ data1.map Prod.fst, x ∈ data2.map Prod.fst) (hz : ∀ z ∈ data1.map Prod.snd, z ∈ data2.map Prod.snd) :
    ∃ t2 f : Tab KX KZ α, t1.fit (data2.map Prod.fst) (data2.map Prod.snd) = (.ok (), t2) ∧
      (new ratio : Tab KX KZ α).fit (data2.map Prod.fst) (data2.map Prod.snd) = (.ok (), f) ∧
      t2.zValues.Perm f.zValues ∧ t2.xValues.Perm f.xValues ∧
      t2.minProb = f.minProb ∧ (∀ x, t2.xMarginal.get? x = f.xMarginal.get? x) ∧
      ∀ q, (t2.predict q).1 = (f.predict q).1 := by
  obtain ⟨t', h1, h2, h3, h4, h5, h6, h7, h8⟩ := fit_spec (new ratio : Tab KX KZ α) (by simp [new]) (by simp [new]) data1 hr hne1 (by simp [new])
  rw [hfit] at h1
  obtain rfl := (Prod.mk.inj h1).2
  have nx : t1.xValues.Nodup := by rw [h5]; exact nodup_mergeKeys _ _ (by simp [new])
  have nz : t1.zValues.Nodup := by rw [h4]; exact nodup_mergeKeys _ _ (by simp [new])
  have mx : ∀ x, x ∈ t1.xValues ↔ x ∈ data1.map Prod.fst := by
    intro x; rw [h5, mem_mergeKeys]; simp [new]
  have mz : ∀ x, x ∈ t1.zValues ↔ x ∈ data1.map Prod.snd := by
    intro x; rw [h4, mem_mergeKeys]; simp [new]
  obtain ⟨t2, g1, g2, g3, g4, g5, g6, g7, g8⟩ := fit_spec t1 nx nz data2 (by rw [h3]; exact hr) hne2 (fun x hx' => hx x ((mx x).mp hx'))
  obtain ⟨f, f1, f2, f3, f4, f5, f6, f7, f8⟩ := fit_spec (new ratio : Tab KX KZ α) (by simp [new]) (by simp [new]) data2 hr hne2 (by simp [new])
  have pz : t2.zValues.Perm f.zValues := by
    rw [g4, f4]
    refine (List.perm_ext_iff_of_nodup (nodup_mergeKeys _ _ nz) (nodup_mergeKeys _ _ (by simp [new]))).mpr fun z => ?_
    rw [mem_mergeKeys, mem_mergeKeys, mz]
    simp only [new, List.not_mem_nil, false_or]
    exact ⟨fun h => h.elim (hz z) id, Or.inr⟩
  have px : t2.xValues.Perm f.xValues := by
    rw [g5, f5]
    refine (List.perm_ext_iff_of_nodup (nodup_mergeKeys _ _ nx) (nodup_mergeKeys _ _ (by simp [new]))).mpr fun z => ?_
    rw [mem_mergeKeys, mem_mergeKeys, mx]
    simp only [new, List.not_mem_nil, false_or]
    exact ⟨fun h => h.elim (hx z) id, Or.inr⟩
  refine ⟨t2, f, g1, f1, pz, px, ?_, ?_, ?_⟩
  · rw [g6, f6, h3, pz.length_eq]
  · intro x; rw [g8, f8]
  · intro q
    rw [(predict_eq q t2).1, (predict_eq q f).1]
    apply List.map_congr_left
    intro p _
    rw [g7, f7, h3, pz.length_eq]
    exact if_congr (and_congr_right fun _ => pz.mem_iff) (adj_perm _ _ _ pz _ _) rfl

example : ∃ t1 : Tab Nat Nat ℚ, (new 20 : Tab Nat Nat ℚ).fit [0, 1] [3, 4] = (.ok (), t1) ∧
    (∀ x ∈ [0, 1], x ∈ demoData.map Prod.fst) ∧ (∀ x ∈ [3, 4], x ∈ demoData.map Prod.snd) :=
  ⟨((new 20 : Tab Nat Nat ℚ).fit [0, 1] [3, 4]).2, by decide +kernel, by decide, by decide⟩

/-! ## C14 -/

/-- **C14** a first fit fails exactly on a length mismatch (`ValueError`, nothing changed) or on empty
data (`ZeroDivisionError`). -/
theorem C14_fit_outcome (ratio : α) (hr : ratio ≠ 0) (xs : List KX) (zs : List KZ) :
    (xs.length ≠ zs.length → (new ratio : Tab KX KZ α).fit xs zs = (.error .valueError, new ratio)) ∧
    (xs = [] ∧ zs = [] → ((new ratio : Tab KX KZ α).fit xs zs).1 = .error .zeroDivisionError) ∧
    (xs.length = zs.length → xs ≠ [] → ((new ratio : Tab KX KZ α).fit xs zs).1 = .ok ()) := by
  refine ⟨?_, ?_, ?_⟩
  · intro h; unfold fit; rw [if_pos h]
  · rintro ⟨rfl, rfl⟩; simp [fit, new]
  · intro h hne
    have h1 : (xs.zip zs).map Prod.fst = xs := List.map_fst_zip (le_of_eq h)
    have h2 : (xs.zip zs).map Prod.snd = zs := List.map_snd_zip (le_of_eq h.symm)
    obtain ⟨t', g, _⟩ := firstFit (KX := KX) (KZ := KZ) ratio hr (xs.zip zs) (by
      intro h0; rw [h0] at h1; exact hne h1.symm)
    rw [h1, h2] at g
    rw [g]

/-- **C14** the row order is irrelevant: two datasets with the same multiset of pairs give the same
predictions, marginals, supports and floor. -/
theorem C14_order_independent (ratio : α) (hr : ratio ≠ 0) (data data' : List (KX × KZ)) (hp : data.Perm data')
    (hne : data ≠ []) (t t' : Tab KX KZ α)
    (hfit : (new ratio : Tab KX KZ α).fit (data.map Prod.fst) (data.map Prod.snd) = (.ok (), t))
    (hfit' : (new ratio : Tab KX KZ α).fit (data'.map Prod.fst) (data'.map Prod.snd) = (.ok (), t')) :
    (∀ q, (t.predict q).1 = (t'.predict q).1) ∧ (∀ x, t.xMarginal.get? x = t'.xMarginal.get? x) ∧
      t.zValues.Perm t'.zValues ∧ t.xValues.Perm t'.xValues ∧ t.minProb = t'.minProb := by
  have hne' : data' ≠ [] := by rintro rfl; exact hne hp.eq_nil
  obtain ⟨t1, h1, h2, h3, h4, h5, h6⟩ := firstFit ratio hr data hne
  obtain ⟨t2, g1, g2, g3, g4, g5, g6⟩ := firstFit ratio hr data' hne'
  rw [hfit] at h1
  rw [hfit'] at g1
  obtain rfl := (Prod.mk.inj h1).2
  obtain rfl := (Prod.mk.inj g1).2
  have pz : t.zValues.Perm t'.zValues :=
    Enumerates.perm h2 ⟨g2.1, fun z => (g2.2 z).trans (hp.map Prod.snd).mem_iff.symm⟩
  have px : t.xValues.Perm t'.xValues :=
    Enumerates.perm h3 ⟨g3.1, fun z => (g3.2 z).trans (hp.map Prod.fst).mem_iff.symm⟩
  have hf : condFreq (KX := KX) (KZ := KZ) α data = condFreq α data' := by
    funext x z
    simp only [condFreq, hp.count_eq, (hp.map Prod.fst).count_eq]
  refine ⟨?_, ?_, pz, px, ?_⟩
  · intro q
    rw [(predict_eq q t).1, (predict_eq q t').1]
    apply List.map_congr_left
    intro p _
    rw [h5, g5, hf, pz.length_eq]
    exact if_congr (and_congr (hp.map Prod.fst).mem_iff (hp.map Prod.snd).mem_iff) (adj_perm _ _ _ pz _ _) rfl
  · intro x
    rw [h6, g6, (hp.map Prod.fst).count_eq, hp.length_eq]
    exact if_congr (hp.map Prod.fst).mem_iff rfl rfl
  · rw [h4, g4, pz.length_eq]

/-- **C14** `x_marginal` holds the relative frequencies of the observed `x` values, which sum to one. -/
theorem C14_marginals (ratio : α) (hr : ratio ≠ 0) (data : List (KX × KZ)) (hne : data ≠ []) (t : Tab KX KZ α)
    (hfit : (new ratio : Tab KX KZ α).fit (data.map Prod.fst) (data.map Prod.snd) = (.ok (), t)) :
    (∀ x ∈ data.map Prod.fst, t.xMarginal.get? x = some (((data.map Prod.fst).count x : α) / (data.length : α))) ∧
    (∀ x, x ∉ data.map Prod.fst → t.xMarginal.get? x = none) ∧
    ∀ xs, Enumerates xs (data.map Prod.fst) → (xs.map fun x => (t.xMarginal.get? x).getD 0).sum = 1 := by
  obtain ⟨t1, h1, h2, h3, h4, h5, h6⟩ := firstFit ratio hr data hne
  rw [hfit] at h1
  obtain rfl := (Prod.mk.inj h1).2
  refine ⟨?_, ?_, ?_⟩
  · intro x hx; rw [h6, if_pos hx]
  · intro x hx; rw [h6, if_neg hx]
  · intro xs hxs
    have hlen : (data.length : α) ≠ 0 := by
      have : 0 < data.length := List.length_pos_iff.mpr hne
      exact_mod_cast this.ne'
    have e : (xs.map fun x => (t.xMarginal.get? x).getD 0) = xs.map fun x => ((data.map Prod.fst).count x : α) * (data.length : α)⁻¹ := by
      apply List.map_congr_left
      intro x hx
      rw [h6, if_pos ((hxs.2 x).mp hx), Option.getD_some, div_eq_mul_inv]
    rw [e, List.sum_map_mul_right]
    -- counts of the distinct values add up to the length
    have hs := sum_counts (α := α) (KX := Unit) (KZ := KX) (data.map fun q => ((), q.1)) () xs hxs.1 (by
      intro x hx
      simp only [List.map_map] at hx
      exact (hxs.2 x).mpr hx)
    have e2 : ∀ x, (data.map fun q => ((), q.1)).count ((), x) = (data.map Prod.fst).count x := by
      intro x
      rw [List.count, List.count, List.countP_map, List.countP_map]
      congr 1
    simp only [e2] at hs
    rw [hs]
    have e3 : ((data.map fun q => ((), q.1)).map Prod.fst).count () = data.length := by
      rw [List.map_map]
      show (data.map fun _ => ()).count () = _
      rw [List.map_const', List.count_replicate_self]
    rw [e3, mul_inv_cancel₀ hlen]

/-- **C14** when no frequency of the row is outside `[min_prob, 1 - min_prob]`, the prediction is the
plain relative frequency. -/
theorem C14_exact_frequencies (ratio : α) (hr : 1 ≤ ratio) (data : List (KX × KZ)) (hne : data ≠ [])
    (t' : Tab KX KZ α)
    (hfit : (new ratio : Tab KX KZ α).fit (data.map Prod.fst) (data.map Prod.snd) = (.ok (), t'))
    (x : KX) (hx : x ∈ data.map Prod.fst) (zs : List KZ) (hzs : Enumerates zs (data.map Prod.snd))
    (hin : ∀ z ∈ zs, 1 / (zs.length : α) / ratio ≤ condFreq α data x z ∧
      condFreq α data x z ≤ 1 - 1 / (zs.length : α) / ratio) :
    (t'.predict (zs.map fun z => (x, z))).1 = zs.map fun z => (data.count (x, z) : α) / ((data.map Prod.fst).count x : α) := by
  rw [predict_row]
  apply List.map_congr_left
  intro z hz
  rw [row_cells hr hne hfit hx hzs z hz]
  have hs0 : (zs.map fun z => viol (1 / (zs.length : α) / ratio) (condFreq α data x z)).sum = 0 := by
    apply List.sum_eq_zero
    intro v hv
    obtain ⟨w, hw, rfl⟩ := List.mem_map.mp hv
    simp only [viol, gt_iff_lt, not_lt.mpr (hin w hw).1, not_lt.mpr (hin w hw).2, if_false]
  simp only [adj, hs0, zero_div, sub_zero]
  rw [if_pos]
  · rfl
  · simp only [okB, Bool.not_eq_true', Bool.or_eq_false_iff, decide_eq_false_iff_not, not_lt, gt_iff_lt]
    exact hin z hz

example : ∀ z ∈ [3, 4, 5], 1 / (3 : ℚ) / 20 ≤ condFreq ℚ demoData 0 z ∧ condFreq ℚ demoData 0 z ≤ 1 - 1 / (3 : ℚ) / 20 := by
  decide +kernel

end Tab
end Verif
