import Mathlib.Data.Fintype.Perm
import Verif.Model.DataTest2
import Verif.Props.Tabular
import Verif.Props.Data

/-!
# Property C110: what the project's tests of data classes accept
-/

set_option linter.unusedSectionVars false
set_option linter.unusedSimpArgs false

namespace Verif
namespace DataTest

theorem twoFolds : ∀ τ : Equiv.Perm (Fin fourUnits.nUnits), (do
    let two ← fourUnits.kFold 2 τ
    return match two with
      | [f, g] => sameArrays f (some (.d2 2 [[0, 1], [6, 7]])) (some [-2, 1]) (some [0, 6]) && sameArrays g (some (.d2 2 [[2, 3], [4, 5]])) (some [-1, 0]) (some [2, 4])
      | _ => false : Except PyErr Bool) = .ok (decide ((τ ⟨0, by decide⟩).val % 2 = 0 ∧ (τ ⟨3, by decide⟩).val % 2 = 0)) := by
  decide +kernel

theorem fourUnits_wf : fourUnits.WF := by
  refine ⟨⟨_, rfl, ?_, rfl, rfl⟩, ?_, ?_⟩
  · intro r hr; simp at hr; rcases hr with rfl | rfl | rfl | rfl <;> rfl
  · intro e he; cases he; rfl
  · intro e he; cases he; rfl

/-- The comparison of the test accepts a dataset only if all three arrays are the expected ones; a dataset that differs in its exposures
only is rejected. -/
theorem sameArrays_iff {d : ExpData ℤ} {cov : Option (Arr ℤ)} {exp rsp : Option (List ℤ)} : sameArrays d cov exp rsp = true ↔ d.cov = cov ∧ d.exp = exp ∧ d.rsp = rsp := by
  simp [sameArrays, and_assoc]

/-- non-vacuity: a fold with the expected covariates and responses and other exposures -/
example : sameArrays (ExpData.new (some (.d2 2 [[0, 1], [6, 7]])) (some [1, -2]) (some [0, 6])) (some (.d2 2 [[0, 1], [6, 7]])) (some [-2, 1]) (some [0, 6]) = false ∧
    sameArrays (ExpData.new (some (.d2 2 [[0, 1], [6, 7]])) (some [-2, 1]) (some [0, 6])) (some (.d2 2 [[0, 1], [6, 7]])) (some [-2, 1]) (some [0, 6]) = true := by
  constructor <;> decide

/-- **C110** `test_k_fold` does not raise, and it passes if and only if the shuffle of the second call puts the first and the last unit into the first fold. -/
theorem C110_k_fold (σ τ : Equiv.Perm (Fin fourUnits.nUnits)) :
    ∃ b, testKFold σ τ = .ok b ∧ (b = true ↔ (τ ⟨0, by decide⟩).val % 2 = 0 ∧ (τ ⟨3, by decide⟩).val % 2 = 0) := by
  have h1 := ExpData.C02_kFold_one fourUnits fourUnits_wf σ
  have h2 := twoFolds τ
  refine ⟨_, ?_, decide_eq_true_iff⟩
  rw [← h2]
  unfold testKFold
  rw [h1]
  simp only [bind, Except.bind, pure, Except.pure]
  cases fourUnits.kFold 2 τ with
  | error e => rfl
  | ok l => rcases l with _ | ⟨f, _ | ⟨g, _ | _⟩⟩ <;> simp [sameArrays]

/-- **C110** The test fails with 20 of the 24 shuffles of its second call: it depends on the seed. -/
theorem C110_k_fold_shuffles (σ : Equiv.Perm (Fin fourUnits.nUnits)) :
    (Finset.univ.filter fun τ => testKFold σ τ = .ok false).card = 20 ∧ Fintype.card (Equiv.Perm (Fin fourUnits.nUnits)) = 24 := by
  have h : ∀ τ, testKFold σ τ = .ok false ↔ ¬ ((τ ⟨0, by decide⟩).val % 2 = 0 ∧ (τ ⟨3, by decide⟩).val % 2 = 0) := by
    intro τ
    obtain ⟨b, e, hb⟩ := C110_k_fold σ τ
    rw [e, ← hb]
    cases b <;> simp
  simp only [h]
  decide +kernel

section
variable {KX KZ α : Type} [DecidableEq KX] [DecidableEq KZ] [Field α] [LinearOrder α] [IsStrictOrderedRing α]

theorem count_fst (data : List (KX × KZ)) (x : KX) (zs : List KZ) (hzs : Enumerates zs (data.map Prod.snd)) :
    (data.map Prod.fst).count x = (zs.map fun z => data.count (x, z)).sum := by
  have key : ∀ l : List (KX × KZ), (∀ p ∈ l, p.2 ∈ zs) → (l.map Prod.fst).count x = (zs.map fun z => l.count (x, z)).sum := by
    intro l
    induction l with
    | nil => intro _; simp
    | cons p l ih =>
      intro h
      have e : ∀ z, (p :: l).count (x, z) = l.count (x, z) + if p = (x, z) then 1 else 0 := fun z => by rw [List.count_cons]; simp
      rw [List.map_cons, List.count_cons, ih fun q hq => h q (List.mem_cons_of_mem _ hq)]
      simp only [e, List.sum_map_add]
      congr 1
      obtain ⟨a, b⟩ := p
      by_cases ha : a = x
      · subst ha
        have hb : b ∈ zs := h (a, b) List.mem_cons_self
        simp only [beq_self_eq_true, if_true, Prod.mk.injEq, true_and]
        have hcount : ∀ l : List KZ, (l.map fun z => if b = z then 1 else 0).sum = l.count b := by
          intro l
          induction l with
          | nil => rfl
          | cons y l ih =>
            rw [List.map_cons, List.sum_cons, ih, List.count_cons, add_comm]
            congr 1
            by_cases e : b = y
            · simp [e]
            · rw [if_neg e, if_neg (by simpa using fun h => e h.symm)]
        rw [hcount, hzs.1.count, if_pos hb]
      · simp [ha]
  exact key data fun p hp => (hzs.2 _).2 (List.mem_map_of_mem hp)

/-- **C110** A table fitted on data in which a value `x` occurs equally often with each of the at least two values of `Z` predicts the uniform law for `x`. -/
theorem C110_uniform (ratio : α) (hr : 1 ≤ ratio) (data : List (KX × KZ)) {c : ℕ} (hc : 1 ≤ c) (zs : List KZ) (hzs : Enumerates zs (data.map Prod.snd)) (h2 : 2 ≤ zs.length)
    (x : KX) (hx : ∀ z ∈ zs, data.count (x, z) = c) :
    ∃ t, (Tab.new ratio : Tab KX KZ α).fit (data.map Prod.fst) (data.map Prod.snd) = (.ok (), t) ∧
      ∀ q, (∀ p ∈ q, p.1 = x ∧ p.2 ∈ zs) → (t.predict q).1 = q.map fun _ => 1 / (zs.length : α) := by
  have hz0 : zs ≠ [] := by rintro rfl; simp at h2
  obtain ⟨z0, hz0⟩ := List.exists_mem_of_ne_nil _ hz0
  have hxz : (x, z0) ∈ data := List.count_pos_iff.1 (by rw [hx z0 hz0]; exact hc)
  have hne : data ≠ [] := List.ne_nil_of_mem hxz
  obtain ⟨t, ht⟩ : ∃ t, (Tab.new ratio : Tab KX KZ α).fit (data.map Prod.fst) (data.map Prod.snd) = (.ok (), t) :=
    ⟨_, Prod.ext ((Tab.C14_fit_outcome ratio (by linarith [zero_lt_one (α := α)] : (ratio : α) ≠ 0) _ _).2.2 (by simp) (by simpa using hne)) rfl⟩
  refine ⟨t, ht, fun q hq => ?_⟩
  have hn : (2 : α) ≤ zs.length := by exact_mod_cast h2
  have hc' : (0 : α) < c := by exact_mod_cast hc
  have hsum : (data.map Prod.fst).count x = zs.length * c := by
    rw [count_fst data x zs hzs, List.map_congr_left hx, List.map_const', List.sum_replicate, nsmul_eq_mul, Nat.cast_id]
  have hfreq : ∀ z ∈ zs, condFreq α data x z = 1 / zs.length := fun z hz => by
    rw [condFreq, hx z hz, hsum]
    push_cast
    field_simp
  have hmp : 1 / (zs.length : α) / ratio ≤ 1 / zs.length := div_le_self (by positivity) hr
  have hhalf : 1 / (zs.length : α) ≤ 1 / 2 := one_div_le_one_div_of_le (by norm_num) hn
  have key := Tab.C14_exact_frequencies ratio hr data hne t ht x (List.mem_map.2 ⟨_, hxz, rfl⟩) zs hzs fun z hz => by
    rw [hfreq z hz]
    exact ⟨hmp, by linarith⟩
  rw [Tab.predict_row] at key
  rw [(Tab.predict_eq q t).1]
  refine List.map_congr_left fun p hp => ?_
  obtain ⟨h1, h3⟩ := hq p hp
  have := List.map_inj_left.1 key p.2 h3
  rw [h1, this]
  exact hfreq p.2 h3

end

theorem predictsAll_true {α : Type} [Field α] [LinearOrder α] (p : α) (q : List (ℤ × ℤ)) (t : Tab ℤ ℤ α) (h : ∀ xz ∈ q, t.cell xz.1 xz.2 = p) : predictsAll p q t = true := by
  induction q generalizing t with
  | nil => rfl
  | cons xz q ih =>
    obtain ⟨x, z⟩ := xz
    obtain ⟨h1, h2⟩ := Tab.predict_eq [(x, z)] t
    have h3 := ih (t.predict [(x, z)]).2 fun xz hxz => by rw [h2]; exact h xz (List.mem_cons_of_mem _ hxz)
    have h4 : (t.predict [(x, z)]).1 = [p] := by rw [h1]; simp [h (x, z) List.mem_cons_self]
    show (decide ((t.predict [(x, z)]).1 = [p]) && predictsAll p q (t.predict [(x, z)]).2) = true
    rw [h3, h4]
    simp

/-- **C110** `test_fit` passes, in every ordered field. -/
theorem C110_fit (α : Type) [Field α] [LinearOrder α] [IsStrictOrderedRing α] : testFit α = .ok true := by
  obtain ⟨data, hdata⟩ : ∃ d : List (ℤ × ℤ), d = [(0, 3), (1, 3), (2, 3), (0, 4), (1, 4), (2, 4), (0, 5), (1, 5), (2, 5)] := ⟨_, rfl⟩
  obtain ⟨t, ht, -, -, hz, hx, -⟩ := Tab.fit_spec (Tab.new 10 : Tab ℤ ℤ α) (by simp [Tab.new]) (by simp [Tab.new]) data (by simp [Tab.new]) (by simp [hdata]) (by simp [Tab.new])
  have hen : Enumerates ([3, 4, 5] : List ℤ) (data.map Prod.snd) := by
    refine ⟨by decide, fun z => ?_⟩
    simp only [hdata, List.map_cons, List.map_nil, List.mem_cons, List.not_mem_nil, or_false]
    omega
  have hcnt : ∀ x ∈ ([0, 1, 2] : List ℤ), ∀ z ∈ ([3, 4, 5] : List ℤ), data.count (x, z) = 1 := by rw [hdata]; decide
  have hcell : ∀ xz ∈ ([0, 1, 2].flatMap fun x => [3, 4, 5].map fun z => (x, z) : List (ℤ × ℤ)), t.cell xz.1 xz.2 = 1 / 3 := by
    rintro ⟨x, z⟩ hm
    simp only [List.mem_flatMap, List.mem_map, Prod.mk.injEq] at hm
    obtain ⟨x', hx', z', hz', rfl, rfl⟩ := hm
    obtain ⟨t', ht', hp⟩ := C110_uniform (α := α) 10 (by norm_num) data (c := 1) le_rfl [3, 4, 5] hen (by decide) x' (hcnt x' hx')
    obtain rfl : t = t' := by rw [ht] at ht'; exact (Prod.mk.inj ht').2
    have := hp [(x', z')] (by simpa using hz')
    rw [(Tab.predict_eq _ t).1] at this
    simpa using this
  have h1 : data.map Prod.fst = [0, 1, 2, 0, 1, 2, 0, 1, 2] := by rw [hdata]; rfl
  have h2 : data.map Prod.snd = [3, 3, 3, 4, 4, 4, 5, 5, 5] := by rw [hdata]; rfl
  rw [h1] at hx ht
  rw [h2] at hz ht
  have hx' : t.xValues = [0, 1, 2] := hx.trans (show Tab.mergeKeys [] _ = _ by decide)
  have hz' : t.zValues = [3, 4, 5] := hz.trans (show Tab.mergeKeys [] _ = _ by decide)
  unfold testFit
  rw [ht]
  show Except.ok (decide (t.xValues = [0, 1, 2]) && decide (t.zValues = [3, 4, 5]) && predictsAll (1 / 3) _ t) = _
  rw [hx', hz', predictsAll_true _ _ _ hcell]
  rfl

/-- non-vacuity of `C110_uniform`: two values of `X`, one of which occurs unevenly -/
example : ∀ z ∈ [3, 4], ([(0, 3), (0, 4), (1, 3), (0, 3), (0, 4)] : List (ℤ × ℤ)).count (0, z) = 2 := by decide

/-- a shuffle with which `test_k_fold` passes, and one with which it fails -/
example (σ : Equiv.Perm (Fin fourUnits.nUnits)) : (testKFold σ (Equiv.swap ⟨2, by decide⟩ ⟨3, by decide⟩) = .ok true) ∧ testKFold σ 1 = .ok false := by
  obtain ⟨b, h1, h2⟩ := C110_k_fold σ (Equiv.swap ⟨2, by decide⟩ ⟨3, by decide⟩)
  obtain ⟨c, h3, h4⟩ := C110_k_fold σ 1
  rw [h1, h3, h2.2 (by decide), Bool.eq_false_iff.2 (fun h => absurd (h4.1 h) (by decide))]
  exact ⟨rfl, rfl⟩

end DataTest
end Verif
