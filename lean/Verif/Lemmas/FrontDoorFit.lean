import Verif.Spec.FrontDoorLimit
import Verif.Lemmas.FrontDoorPure
import Verif.Lemmas.RidgeIntercept
import Verif.Lemmas.Tabular2

/-!
# Fitting and evaluating front-door parameters
-/

set_option linter.unusedSectionVars false
set_option linter.unusedSimpArgs false

namespace Verif
open MeasureTheory ProbabilityTheory Filter Topology Arm Param

theorem Obs.FiniteZ.binary {S : Finset ℤ} {u : Obs ℝ} (h : u.FiniteZ S) : u.Binary := by
  rcases h.1 with h | h
  · left; simp [Obs.xv, h, Cell.val]
  · right; simp [Obs.xv, h, Cell.val]

theorem Obs.FiniteZ.length {S : Finset ℤ} {u : Obs ℝ} (h : u.FiniteZ S) : u.z.length = 1 := by
  obtain ⟨a, -, h⟩ := h.2
  rw [h]; rfl

theorem Obs.FiniteZ.point {S : Finset ℤ} {u : Obs ℝ} (h : u.FiniteZ S) :
    ((u.point 1).2.1 = 0 ∨ (u.point 1).2.1 = 1) ∧ ∃ a ∈ S, (u.point 1).1 0 = a := by
  refine ⟨h.binary, ?_⟩
  obtain ⟨a, ha, h⟩ := h.2
  exact ⟨a, ha, by simp [Obs.point, Obs.zv, h, Cell.val]⟩

namespace FrontDoor
variable {M : Type} {S : Finset ℤ} {R : Predictor M ℝ} {SR : M → Prop} {μ : ℤ} {κ ratio lam : ℝ}

/-- what is known of a parameter fitted on the units `us` -/
structure FittedOn (R : Predictor M ℝ) (lam κ : ℝ) (us : List (Obs ℝ)) (e : FrontDoor M ℝ) (θ : Fin 3 → ℝ) : Prop where
  fit : e.hasBeenFit = true
  response : ∀ r, r.length = 2 → R.predict e.yResponse r = affineValue θ r
  ridge : ∀ t : Fin 3 → ℝ, interceptLoss (k := 1) us lam θ ≤ interceptLoss (k := 1) us lam t
  q : e.expProb = clamp κ (pmean (us.map Obs.xv))
  seen : ∀ u ∈ us, u.z ∈ e.cpd.zValues
  cell : ∀ u ∈ us, ∀ z ∈ e.cpd.zValues, e.cpd.cell u.x z = Tab.adj (Tab.mpOf e.cpd.ratio e.cpd.zValues.length) e.cpd.zValues
    (fun z => (us.countP (fun v => decide (v.x = u.x ∧ v.z = z)) : ℝ) / (us.countP (fun v => decide (v.x = u.x)) : ℝ)) z

theorem Regular.alike {e e' : FrontDoor M ℝ} (h : Regular S SR μ κ ratio e) (ha : Alike e e') : Regular S SR μ κ ratio e' := by
  obtain ⟨h1, h2⟩ := ha
  generalize e'.cpd = t at h1 h2
  subst h1
  exact ⟨h.covDim, h.response, h.minUnits, h.minOverlap, h2.ratio.trans h.ratio, by rw [show _ = e.cpd.xValues from h2.xValues]; exact h.xs,
    by rw [show _ = e.cpd.xValues from h2.xValues]; exact h.xnd, by rw [show _ = e.cpd.zValues from h2.zValues]; exact h.zs,
    by rw [show _ = e.cpd.zValues from h2.zValues]; exact h.znd, h.q⟩

theorem FittedOn.alike {us : List (Obs ℝ)} {θ : Fin 3 → ℝ} {e e' : FrontDoor M ℝ} (h : FittedOn R lam κ us e θ) (ha : Alike e e') : FittedOn R lam κ us e' θ := by
  obtain ⟨h1, h2⟩ := ha
  generalize e'.cpd = t at h1 h2
  subst h1
  refine ⟨h.fit, h.response, h.ridge, h.q, ?_, ?_⟩
  · rw [show _ = e.cpd.zValues from h2.zValues]; exact h.seen
  · simp only [h2.zValues, h2.ratio, h2.cell]; exact h.cell

theorem regular_new (ridge0 : M) (h0 : SR ridge0) (h2 : κ ≤ 1 / 2) : Regular S SR μ κ ratio (new ridge0 1 μ κ ratio) :=
  ⟨rfl, h0, rfl, rfl, rfl, by simp [new, Tab.new], by simp [new, Tab.new], by simp [new, Tab.new], by simp [new, Tab.new],
    by simp only [new]; constructor <;> linarith⟩

theorem rowKey_finite {u : Obs ℝ} (h : u.FiniteZ S) : rowKey u.z = u.z := by
  obtain ⟨a, -, h⟩ := h.2
  rw [h]; rfl

theorem key_finite {u : Obs ℝ} (h : u.FiniteZ S) : u.x.key = u.x := by
  rcases h.1 with h | h <;> rw [h] <;> rfl

theorem fit_regular (hR : R.IsRidgeIntercept SR lam) (hμ : 1 ≤ μ) (hr : ratio ≠ 0) (h2 : κ ≤ 1 / 2) {e : FrontDoor M ℝ} (he : Regular S SR μ κ ratio e)
    {us : List (Obs ℝ)} (hne : us ≠ []) (hus : ∀ u ∈ us, u.FiniteZ S) :
    ∃ e', fit R (Obs.dataset 1 us) e = (.ok (), e') ∧ Regular S SR μ κ ratio e' ∧
      (μ ≤ Obs.treated us ∧ μ ≤ Obs.control us → ∃ θ, FittedOn R lam κ us e' θ) := by
  have hbin : ∀ u ∈ us, u.Binary := fun u hu => (hus u hu).binary
  have hk := he.covDim
  by_cases h : μ ≤ Obs.treated us ∧ μ ≤ Obs.control us
  · have htf : tooFew e.minUnits (Obs.dataset e.covDim us).nUnits (us.map Obs.x) = false := by
      rw [← Bool.not_eq_true, Obs.tooFew_iff us hbin, he.minUnits, not_not]
      exact h
    obtain ⟨m', θ, a1, a2, a3, a4⟩ := hR e.yResponse 2 (us.map fun u => u.xv :: u.zv) (us.map Obs.yv) he.response (by omega) (by simpa using hne) (by simp) (by
      intro r hr
      obtain ⟨u, hu, rfl⟩ := List.mem_map.1 hr
      rw [List.length_cons, AIPW.zv_length (hus u hu).length])
    have hx0 : ∃ u ∈ us, u.x = .int 0 := by
      have : 0 < Obs.control us := by have := h.2; omega
      obtain ⟨u, hu, hx⟩ := List.countP_pos_iff.1 this
      refine ⟨u, hu, (hus u hu).1.resolve_right fun h1 => ?_⟩
      simp [Obs.xv, h1, Cell.val] at hx
    have hx1 : ∃ u ∈ us, u.x = .int 1 := by
      have : 0 < Obs.treated us := by have := h.1; omega
      obtain ⟨u, hu, hx⟩ := List.countP_pos_iff.1 this
      refine ⟨u, hu, (hus u hu).1.resolve_left fun h1 => ?_⟩
      simp [Obs.xv, h1, Cell.val] at hx
    have ex : (us.map fun u => u.x.key) = us.map Obs.x := List.map_congr_left fun u hu => key_finite (hus u hu)
    have ez : (us.map fun u => rowKey u.z) = us.map Obs.z := List.map_congr_left fun u hu => rowKey_finite (hus u hu)
    have f1 : (us.map fun v => (v.x, v.z)).map Prod.fst = us.map Obs.x := by rw [List.map_map]; rfl
    have f2 : (us.map fun v => (v.x, v.z)).map Prod.snd = us.map Obs.z := by rw [List.map_map]; rfl
    obtain ⟨t, et, -, t2, t3, t4, -, t6, -⟩ := Tab.fit_spec e.cpd he.xnd he.znd (us.map fun u => (u.x, u.z)) (by rw [he.ratio]; exact hr) (by simpa using hne) (by
      intro x hx
      rw [f1]
      obtain ⟨u0, hu0, e0⟩ := hx0
      obtain ⟨u1, hu1, e1⟩ := hx1
      rcases he.xs x hx with rfl | rfl
      · exact List.mem_map.2 ⟨u0, hu0, e0⟩
      · exact List.mem_map.2 ⟨u1, hu1, e1⟩)
    rw [f1, f2] at et
    rw [f2] at t3
    rw [f1] at t4
    have c1 : ∀ (x : Cell ℝ) (z : List (Cell ℝ)), @List.count _ (@instBEqProd _ _ instBEqOfDecidableEq instBEqOfDecidableEq) (x, z) (us.map fun v => (v.x, v.z)) = us.countP fun v => decide (v.x = x ∧ v.z = z) := by
      intro x z
      unfold List.count
      rw [List.countP_map]
      refine List.countP_congr fun v _ => ?_
      simp
    have c2 : ∀ x, (us.map Obs.x).count x = us.countP fun v => decide (v.x = x) := by
      intro x
      rw [List.count, List.countP_map]
      refine List.countP_congr fun v _ => ?_
      simp
    rw [← hk, fit_enough R us e htf, ex, ez]
    have i1 : ((us.map fun u => u.xv :: u.zv).isEmpty || decide ((us.map fun u => u.xv :: u.zv).length ≠ (us.map Obs.yv).length)) = false := by
      simpa using hne
    unfold Predictor.fitRows
    rw [i1]
    simp only [Bool.false_eq_true, if_false, a1, et]
    have hq : κ ≤ qOf e us ∧ qOf e us ≤ 1 - κ := by
      rw [← he.minOverlap]
      exact AIPW.clip_mem (by rw [he.minOverlap]; linarith)
    have hzmem : ∀ z, z ∈ t.zValues ↔ z ∈ e.cpd.zValues ∨ z ∈ us.map Obs.z := by
      intro z; rw [t3, Tab.mem_mergeKeys]
    refine ⟨_, rfl, ⟨hk, a2, he.minUnits, he.minOverlap, t2.trans he.ratio, ?_, ?_, ?_, ?_, hq⟩, fun _ => ⟨θ, rfl, a3, ?_, ?_, ?_, ?_⟩⟩
    · intro x hx
      dsimp only at hx
      rw [t4, Tab.mem_mergeKeys] at hx
      rcases hx with h' | h'
      · exact he.xs x h'
      · obtain ⟨u, hu', rfl⟩ := List.mem_map.1 h'
        exact (hus u hu').1
    · dsimp only; rw [t4]; exact Tab.nodup_mergeKeys _ _ he.xnd
    · intro z hz
      rcases (hzmem z).1 hz with h' | h'
      · exact he.zs z h'
      · obtain ⟨u, hu', rfl⟩ := List.mem_map.1 h'
        exact (hus u hu').2
    · dsimp only; rw [t3]; exact Tab.nodup_mergeKeys _ _ he.znd
    · intro c
      rw [← interceptObjective_units, ← interceptObjective_units]
      exact a4 c
    · show qOf e us = _
      unfold qOf clamp pmean clip
      rw [he.minOverlap, List.length_map]
    · intro u hu
      exact (hzmem u.z).2 (Or.inr (List.mem_map.2 ⟨u, hu, rfl⟩))
    · intro u hu z hz
      show t.cell u.x z = _
      rw [t6 u.x z, f1, if_pos ⟨List.mem_map.2 ⟨u, hu, rfl⟩, hz⟩, t2]
      simp only [c1, c2]
  · have := fit_few R us e ((Obs.tooFew_iff us hbin _ _).mpr (by rw [he.minUnits]; exact h))
    rw [hk] at this
    rw [this]
    exact ⟨_, rfl, ⟨rfl, he.response, he.minUnits, he.minOverlap, he.ratio, he.xs, he.xnd, he.zs, he.znd, he.q⟩, fun h' => absurd h' h⟩

theorem affineValue_pair (θ : Fin 3 → ℝ) (x a : ℝ) : affineValue θ [x, a] = planeValue θ x a := by
  unfold affineValue linearValue planeValue
  rw [Fin.sum_univ_two]
  simp [add_assoc]

theorem sum_keys {zs : List (List (Cell ℝ))} (hnd : zs.Nodup) (h1 : ∀ z ∈ zs, ∃ a ∈ S, z = [.int a]) (h2 : ∀ a ∈ S, [Cell.int a] ∈ zs) (f : List (Cell ℝ) → ℝ) :
    (zs.map f).sum = ∑ a ∈ S, f [.int a] := by
  have hp : zs.Perm (S.toList.map fun a => [Cell.int a]) := by
    refine (List.perm_ext_iff_of_nodup hnd ?_).2 fun z => ?_
    · refine (Finset.nodup_toList S).map ?_
      intro a b h
      simpa using h
    · constructor
      · intro h
        obtain ⟨a, ha, rfl⟩ := h1 z h
        exact List.mem_map.2 ⟨a, Finset.mem_toList.2 ha, rfl⟩
      · intro h
        obtain ⟨a, ha, rfl⟩ := List.mem_map.1 h
        exact h2 a (Finset.mem_toList.1 ha)
  rw [(hp.map f).sum_eq, List.map_map, ← Finset.sum_map_toList]
  rfl

/-- the conditional probabilities in the table -/
noncomputable def tableOf (e : FrontDoor M ℝ) (x a : ℝ) : ℝ := e.cpd.cell (.int ⌊x⌋) [.int ⌊a⌋]

theorem score_plane (h1 : 0 < κ) (h2 : κ ≤ 1 / 2) {e : FrontDoor M ℝ} (he : Regular S SR μ κ ratio e) {θ : Fin 3 → ℝ}
    (hfit : e.hasBeenFit = true) (hpr : ∀ x y : ℝ, R.predict e.yResponse [x, y] = planeValue θ x y) (hz : ∀ a ∈ S, [Cell.int a] ∈ e.cpd.zValues)
    {vs : List (Obs ℝ)} (hne : vs ≠ []) (hvs : ∀ u ∈ vs, u.FiniteZ S) :
    (score R (Obs.dataset 1 vs) e).1 = .ok ((vs.map fun u => frontDoorPoint κ e.expProb (planeValue θ) (tableOf e) S (u.point 1)).map Fl.fin) := by
  obtain ⟨t', -, h⟩ := score_dataset R e vs hfit hne (by
    intro z hz
    obtain ⟨a, -, rfl⟩ := he.zs z hz
    simp) (by rw [he.minOverlap]; exact h1) (by rw [he.minOverlap]; exact h2) (by rw [he.minOverlap]; exact he.q)
  rw [he.covDim] at h
  rw [h, List.map_map]
  simp only
  congr 1
  refine List.map_congr_left fun u hu => ?_
  rw [Function.comp_apply]
  congr 1
  obtain ⟨a, ha, hz'⟩ := (hvs u hu).2
  have hzv : u.zv = [(a : ℝ)] := by simp [Obs.zv, hz', Cell.val]
  have hx : ∃ i : ℤ, u.x = .int i := by
    rcases (hvs u hu).1 with h | h <;> exact ⟨_, h⟩
  obtain ⟨i, hx⟩ := hx
  have hxv : u.xv = (i : ℝ) := by simp [Obs.xv, hx, Cell.val]
  have hp : u.point 1 = (fun _ => (a : ℝ), (i : ℝ), u.yv) := by
    unfold Obs.point
    rw [hxv]
    congr 1
    funext j
    rw [hzv]
    fin_cases j
    rfl
  have e1 : ∀ x : ℝ, f1Sum R e.yResponse e.cpd x e.cpd.zValues = ∑ a ∈ S, planeValue θ x a * (tableOf e 1 a - tableOf e 0 a) := by
    intro x
    unfold f1Sum
    rw [sum_keys he.znd he.zs hz]
    refine Finset.sum_congr rfl fun a _ => ?_
    simp [Cell.val, hpr, tableOf]
  have e3 : ∀ q p1 p0 : ℝ, f3Sum R e.yResponse q p1 p0 e.cpd.zValues = ∑ a ∈ S, (planeValue θ 1 a * q * p1 + planeValue θ 0 a * (1 - q) * p0) := by
    intro q p1 p0
    unfold f3Sum
    rw [sum_keys he.znd he.zs hz]
    refine Finset.sum_congr rfl fun a _ => ?_
    simp [Cell.val, hpr]
  unfold frontDoorScore frontDoorPoint
  dsimp only
  rw [e1, e3, hp, hxv, hzv, hz', hx, he.minOverlap]
  simp only [hpr, rowKey, List.map_cons, List.map_nil, Cell.key, tableOf, clamp, clip, Int.floor_intCast, Int.floor_one, Int.floor_zero]

theorem score_table (h1 : 0 < κ) (h2 : κ ≤ 1 / 2) {e : FrontDoor M ℝ} (he : Regular S SR μ κ ratio e) {us : List (Obs ℝ)} {θ : Fin 3 → ℝ}
    (hf : FittedOn R lam κ us e θ) (hz : ∀ a ∈ S, [Cell.int a] ∈ e.cpd.zValues) {vs : List (Obs ℝ)} (hne : vs ≠ []) (hvs : ∀ u ∈ vs, u.FiniteZ S) :
    (score R (Obs.dataset 1 vs) e).1 = .ok ((vs.map fun u => frontDoorPoint κ e.expProb (planeValue θ) (tableOf e) S (u.point 1)).map Fl.fin) :=
  score_plane h1 h2 he hf.fit (fun x y => by rw [hf.response _ rfl, affineValue_pair]) hz hne hvs

theorem score_runs (h1 : 0 < κ) (h2 : κ ≤ 1 / 2) {e : FrontDoor M ℝ} (he : Regular S SR μ κ ratio e) (hf : e.hasBeenFit = true) {vs : List (Obs ℝ)} (hne : vs ≠ []) :
    ∃ (xs : List ℝ) (e' : FrontDoor M ℝ), score R (Obs.dataset 1 vs) e = (.ok (xs.map Fl.fin), e') ∧ xs.length = vs.length := by
  obtain ⟨t', -, h⟩ := score_dataset R e vs hf hne (by
    intro z hz
    obtain ⟨a, -, rfl⟩ := he.zs z hz
    simp) (by rw [he.minOverlap]; exact h1) (by rw [he.minOverlap]; exact h2) (by rw [he.minOverlap]; exact he.q)
  rw [he.covDim] at h
  obtain ⟨f, e', hf'⟩ : ∃ (f : Obs ℝ → ℝ) (e' : FrontDoor M ℝ), score R (Obs.dataset 1 vs) e = (.ok (vs.map fun u => .fin (f u)), e') := ⟨_, _, h⟩
  exact ⟨vs.map f, _, by rw [hf', List.map_map]; rfl, List.length_map _⟩

end FrontDoor
end Verif
