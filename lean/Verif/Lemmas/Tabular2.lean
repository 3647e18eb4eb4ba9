import Verif.Lemmas.Tabular
import Verif.Spec.Tabular

set_option linter.unusedSectionVars false

namespace Verif
namespace Tab
variable {KX KZ α : Type} [DecidableEq KX] [DecidableEq KZ] [Field α] [LinearOrder α] [IsStrictOrderedRing α]

/-! Helper facts about a first fit. -/

theorem firstFit (ratio : α) (hr : ratio ≠ 0) (data : List (KX × KZ)) (hne : data ≠ []) :
    ∃ t', (new ratio : Tab KX KZ α).fit (data.map Prod.fst) (data.map Prod.snd) = (.ok (), t') ∧
      Enumerates t'.zValues (data.map Prod.snd) ∧ Enumerates t'.xValues (data.map Prod.fst) ∧
      t'.minProb = some (mpOf ratio t'.zValues.length) ∧
      (∀ x z, t'.cell x z = if x ∈ data.map Prod.fst ∧ z ∈ data.map Prod.snd then
        adj (mpOf ratio t'.zValues.length) t'.zValues (condFreq α data x) z else 0) ∧
      (∀ x, t'.xMarginal.get? x = if x ∈ data.map Prod.fst then
        some (((data.map Prod.fst).count x : α) / (data.length : α)) else none) := by
  obtain ⟨t', h1, h2, h3, h4, h5, h6, h7, h8⟩ := fit_spec (new ratio : Tab KX KZ α) (by simp [new]) (by simp [new]) data hr hne (by simp [new])
  have e1 : Enumerates t'.zValues (data.map Prod.snd) := by
    rw [h4]
    refine ⟨nodup_mergeKeys _ _ (by simp [new]), fun z => ?_⟩
    rw [mem_mergeKeys]; simp [new]
  have e2 : Enumerates t'.xValues (data.map Prod.fst) := by
    rw [h5]
    refine ⟨nodup_mergeKeys _ _ (by simp [new]), fun z => ?_⟩
    rw [mem_mergeKeys]; simp [new]
  refine ⟨t', h1, e1, e2, h6, ?_, h8⟩
  intro x z
  rw [h7 x z]
  exact if_congr (and_congr_right fun _ => e1.2 z) rfl rfl

theorem Enumerates.perm {K : Type} {zs zs' l : List K} (h : Enumerates zs l) (h' : Enumerates zs' l) : zs.Perm zs' :=
  (List.perm_ext_iff_of_nodup h.1 h'.1).mpr fun z => (h.2 z).trans (h'.2 z).symm

theorem adj_perm (mp : α) (zs zs' : List KZ) (h : zs.Perm zs') (p : KZ → α) (z : KZ) : adj mp zs p z = adj mp zs' p z := by
  simp only [adj]
  rw [(h.map _).sum_eq, (h.filter _).length_eq]

theorem mpOf_eq (ratio : α) (hr : 1 ≤ ratio) (m : Nat) : mpOf ratio m = 1 / (m : α) / ratio := by
  unfold mpOf
  rw [if_neg]
  rw [not_lt]
  have h0 : (0 : α) < ratio := lt_of_lt_of_le one_pos hr
  rw [div_le_one h0]
  rcases Nat.eq_zero_or_pos m with rfl | hm
  · simp; exact h0.le
  · have : (1 : α) ≤ m := by exact_mod_cast hm
    have h1 : 1 / (m : α) ≤ 1 := by rw [div_le_one (by linarith)]; exact this
    linarith

theorem mp_bounds (ratio : α) (hr : 1 ≤ ratio) (m : Nat) (hm : 1 ≤ m) :
    0 < 1 / (m : α) / ratio ∧ 1 / (m : α) / ratio * (m : α) ≤ 1 := by
  have h0 : (0 : α) < ratio := lt_of_lt_of_le one_pos hr
  have hm0 : (0 : α) < m := by exact_mod_cast hm
  refine ⟨by positivity, ?_⟩
  rw [div_div, div_mul_eq_mul_div, one_mul, div_le_one (by positivity)]
  nlinarith

theorem condFreq_nonneg (data : List (KX × KZ)) (x : KX) (z : KZ) : 0 ≤ condFreq α data x z := by
  unfold condFreq; positivity

theorem condFreq_sum (data : List (KX × KZ)) (x : KX) (hx : x ∈ data.map Prod.fst) (zs : List KZ)
    (hzs : Enumerates zs (data.map Prod.snd)) : (zs.map (condFreq α data x)).sum = 1 := by
  have h0 : ((data.map Prod.fst).count x : α) ≠ 0 := by
    have : 0 < (data.map Prod.fst).count x := List.count_pos_iff.mpr hx
    exact_mod_cast this.ne'
  have : (zs.map (condFreq α data x)).sum = (zs.map fun z => (data.count (x, z) : α)).sum / ((data.map Prod.fst).count x : α) := by
    rw [div_eq_mul_inv, ← List.sum_map_mul_right]
    congr 1
    apply List.map_congr_left
    intro z _
    rw [condFreq, div_eq_mul_inv]
  rw [this, sum_counts data x zs hzs.1 (fun z hz => (hzs.2 z).mpr hz), div_self h0]

theorem predict_row (t : Tab KX KZ α) (x : KX) (zs : List KZ) :
    (t.predict (zs.map fun z => (x, z))).1 = zs.map (t.cell x) := by
  rw [(predict_eq _ t).1, List.map_map]; rfl

theorem row_cells {t' : Tab KX KZ α} {ratio : α} (hr : 1 ≤ ratio) {data : List (KX × KZ)} (hne : data ≠ [])
    (hfit : (new ratio : Tab KX KZ α).fit (data.map Prod.fst) (data.map Prod.snd) = (.ok (), t'))
    {x : KX} (hx : x ∈ data.map Prod.fst) {zs : List KZ} (hzs : Enumerates zs (data.map Prod.snd)) :
    ∀ z ∈ zs, t'.cell x z = adj (1 / (zs.length : α) / ratio) zs (condFreq α data x) z := by
  have h0 : ratio ≠ 0 := by rintro rfl; exact absurd hr (not_le.mpr one_pos)
  obtain ⟨t1, h1, h2, h3, h4, h5, h6⟩ := firstFit ratio h0 data hne
  rw [hfit] at h1
  obtain rfl := (Prod.mk.inj h1).2
  intro z hz
  rw [h5, if_pos ⟨hx, (hzs.2 z).mp hz⟩, mpOf_eq ratio hr, (Enumerates.perm h2 hzs).length_eq,
    adj_perm _ _ _ (Enumerates.perm h2 hzs)]

end Tab
end Verif
