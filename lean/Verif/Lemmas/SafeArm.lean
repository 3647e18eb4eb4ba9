import Verif.Spec.SafeArm
import Verif.Lemmas.Arms7
import Verif.Lemmas.Arms9
import Verif.Lemmas.Parameters2
import Verif.Lemmas.FrontDoor2
import Verif.Props.Data
import Verif.Props.Widths

/-!
# Updates of a sample-splitting arm that never fail
-/

set_option linter.unusedSectionVars false
set_option linter.unusedSimpArgs false

namespace Verif
open Param

/-! ## Good datasets -/
section Data
variable {α : Type} [Field α] [LinearOrder α] {k : Nat} {x0 x1 : Cell α}

theorem Obs.dataset_wf (us : List (Obs α)) (h : ∀ u ∈ us, u.z.length = k) : (Obs.dataset k us).WF := by
  refine ⟨⟨_, rfl, ?_, ?_, rfl⟩, ?_, ?_⟩
  · intro r hr
    obtain ⟨u, hu, rfl⟩ := List.mem_map.1 hr
    exact h u hu
  · rw [Obs.dataset_nUnits]; simp [Arr.len]
  · rintro _ ⟨rfl⟩; rw [Obs.dataset_nUnits]; simp
  · rintro _ ⟨rfl⟩; rw [Obs.dataset_nUnits]; simp

theorem Obs.dataset_units (us : List (Obs α)) : (Obs.dataset k us).units = us.map fun u => (some u.z, some u.x, some u.y) := by
  unfold ExpData.units
  rw [Obs.dataset_nUnits]
  apply List.ext_getElem
  · simp
  · intro i h1 h2
    simp only [List.length_map, List.length_range] at h1
    simp [ExpData.unitAt, Obs.dataset, ExpData.new, Arr.row?, h1]

theorem GoodData.mono {m n : Nat} {d : ExpData (Cell α)} (h : GoodData k x0 x1 n d) (hm : m ≤ n) : GoodData k x0 x1 m d := by
  obtain ⟨us, e, h1, h2⟩ := h
  exact ⟨us, e, hm.trans h1, h2⟩

/-- goodness in terms of the units of the dataset -/
theorem goodData_iff {n : Nat} {d : ExpData (Cell α)} : GoodData k x0 x1 n d ↔
    d.WF ∧ ExpData.SameKind (Obs.dataset k ([] : List (Obs α))) d ∧ n ≤ d.nUnits ∧ ∀ p ∈ d.units, p.2.1 = some x0 ∨ p.2.1 = some x1 := by
  constructor
  · rintro ⟨us, rfl, h1, h2⟩
    refine ⟨Obs.dataset_wf us fun u hu => (h2 u hu).1, ⟨rfl, rfl, rfl, rfl⟩, by rwa [Obs.dataset_nUnits], ?_⟩
    intro p hp
    rw [Obs.dataset_units] at hp
    obtain ⟨u, hu, rfl⟩ := List.mem_map.1 hp
    exact (h2 u hu).2.imp (by rintro rfl; rfl) (by rintro rfl; rfl)
  · rintro ⟨hw, hk, hn, hu⟩
    have h2 : ∃ c rows, d.cov = some (.d2 c rows) := by
      have := hk.rank
      obtain ⟨a, ha, -⟩ := hw.cov
      rw [ha] at this ⊢
      cases a with
      | d1 xs => simp [Obs.dataset, ExpData.new, Arr.isD1] at this
      | d2 c rows => exact ⟨c, rows, rfl⟩
    obtain ⟨us, e, hz⟩ := Obs.eq_dataset d hw h2 (by rw [hk.exp]; rfl) (by rw [hk.rsp]; rfl)
    have hf : d.nFeatures = k := hk.nFeatures
    rw [hf] at e hz
    subst e
    refine ⟨us, rfl, by rwa [Obs.dataset_nUnits] at hn, fun u h => ⟨hz u h, ?_⟩⟩
    rw [Obs.dataset_units] at hu
    simpa using hu _ (List.mem_map_of_mem h)

end Data

namespace ExpData
variable {β : Type}

/-- the folds of a cut in two: kind, units and sizes -/
theorem kFold_halves (d : ExpData β) (hd : d.WF) (σ : Equiv.Perm (Fin d.nUnits)) :
    ∃ f0 f1 : ExpData β, d.kFold 2 σ = .ok [f0, f1] ∧ f0.WF ∧ f1.WF ∧ SameKind d f0 ∧ SameKind d f1 ∧
      f0.nUnits = (d.nUnits + 1) / 2 ∧ f1.nUnits = d.nUnits / 2 ∧ (∀ p ∈ f0.units, p ∈ d.units) ∧ ∀ p ∈ f1.units, p ∈ d.units := by
  obtain ⟨f0, f1, I, J, h1, h2, h3, h4, h5, h6, h7, h8⟩ := kFold_two d hd σ
  obtain ⟨fs, h9, -, h10⟩ := C02_kFold_sizes d hd 2 (by omega) σ
  rw [show ((2 : Nat) : Int) = 2 from rfl, h1] at h9
  obtain rfl := Except.ok.inj h9
  have hI : ∀ i ∈ I, i < d.nUnits := fun i hi => by simpa using h2.subset (List.mem_append_left _ hi)
  have hJ : ∀ i ∈ J, i < d.nUnits := fun i hi => by simpa using h2.subset (List.mem_append_right _ hi)
  have hm : ∀ i, i < d.nUnits → d.unitAt i ∈ d.units := fun i hi => List.mem_map_of_mem (List.mem_range.2 hi)
  refine ⟨f0, f1, h1, h3, h4, h5, h6, ?_, ?_, ?_, ?_⟩
  · rw [h10 0 f0 rfl]; split <;> omega
  · rw [h10 1 f1 rfl]; split <;> omega
  · intro p hp
    rw [h7] at hp
    obtain ⟨i, hi, rfl⟩ := List.mem_map.1 hp
    exact hm i (hI i hi)
  · intro p hp
    rw [h8] at hp
    obtain ⟨i, hi, rfl⟩ := List.mem_map.1 hp
    exact hm i (hJ i hi)

end ExpData

namespace Arm
open ExpData
variable {E α W : Type} [Field α] [LinearOrder α] {k : Nat} {x0 x1 : Cell α}

/-- The data stored by the arm are good (and it has some, if it has been updated). -/
def GoodSplit (k : Nat) (x0 x1 : Cell α) (s : ArmState E (Cell α) α) : Prop :=
  s.split = none ∨ ∃ a b, s.split = some [a, b] ∧ GoodData k x0 x1 1 a ∧ GoodData k x0 x1 1 b

theorem addData_good (transform : ExpData (Cell α) → Except PyErr (ExpData (Cell α))) (stable : Bool) (rng : Rng W α) (d t : ExpData (Cell α))
    (ht : transform d = .ok t) (hg : GoodData k x0 x1 2 t) (s : ArmState E (Cell α) α) (w : W) (hs : GoodSplit k x0 x1 s) :
    ∃ f0 f1 w', addData transform stable rng d (s, w) = (.ok (), { s with split := some [f0, f1] }, w') ∧
      GoodData k x0 x1 1 f0 ∧ GoodData k x0 x1 1 f1 ∧ (stable = true → f0.nUnits + f1.nUnits = ssNumUnits s + t.nUnits) := by
  rw [goodData_iff] at hg
  obtain ⟨g1, g2, g3, g4⟩ := hg
  obtain ⟨f0, f1, e, w0, w1, k0, k1, n0, n1, u0, u1⟩ := kFold_halves t g1 (rng.perm t.nUnits w).1
  have hfold : transformAndFold (E := E) transform rng d (s, w) = (.ok [f0, f1], s, (rng.perm t.nUnits w).2) := by
    simp only [transformAndFold, ht, e]
  have hset : (s.split.isSome && stable) = false → ∃ f0 f1 w', addData transform stable rng d (s, w) = (.ok (), { s with split := some [f0, f1] }, w') ∧
      GoodData k x0 x1 1 f0 ∧ GoodData k x0 x1 1 f1 ∧ (stable = true → f0.nUnits + f1.nUnits = ssNumUnits s + t.nUnits) := by
    intro hb
    refine ⟨f0, f1, (rng.perm t.nUnits w).2, ?_, ?_, ?_, ?_⟩
    · unfold addData
      rw [Py.bind_ok hfold, Py.bind_ok (Py.get_apply _)]
      simp only [hb]
      rfl
    · exact goodData_iff.2 ⟨w0, g2.trans k0, by omega, fun p hp => g4 p (u0 p hp)⟩
    · exact goodData_iff.2 ⟨w1, g2.trans k1, by omega, fun p hp => g4 p (u1 p hp)⟩
    · rintro rfl
      have h0 : s.split = none := by simpa using hb
      have : ssNumUnits s = 0 := by simp [ssNumUnits, h0]
      omega
  rcases hs with h | ⟨a, b, h, ha, hb⟩
  · exact hset (by simp [h])
  · cases stable with
    | false => exact hset (by simp)
    | true =>
      rw [goodData_iff] at ha hb
      obtain ⟨a1, a2, a3, a4⟩ := ha
      obtain ⟨b1, b2, b3, b4⟩ := hb
      have ka := a2.symm.trans (g2.trans k0)
      have kb := b2.symm.trans (g2.trans k1)
      obtain ⟨ra, ea, ca⟩ := append_isConcat a f0 a1 w0 ka.appendable
      obtain ⟨rb, eb, cb⟩ := append_isConcat b f1 b1 w1 kb.appendable
      refine ⟨ra, rb, (rng.perm t.nUnits w).2, ?_, ?_, ?_, ?_⟩
      · unfold addData
        rw [Py.bind_ok hfold, Py.bind_ok (Py.get_apply _)]
        simp only [h, Option.isSome_some, Bool.true_and, if_true]
        simp only [appendFolds, h, ea, eb]
      · refine goodData_iff.2 ⟨ca.wf, a2.trans ca.kind, by rw [ca.size]; omega, fun p hp => ?_⟩
        rw [ca.units_eq ka] at hp
        rcases List.mem_append.1 hp with hp | hp
        · exact a4 p hp
        · exact g4 p (u0 p hp)
      · refine goodData_iff.2 ⟨cb.wf, b2.trans cb.kind, by rw [cb.size]; omega, fun p hp => ?_⟩
        rw [cb.units_eq kb] at hp
        rcases List.mem_append.1 hp with hp | hp
        · exact b4 p hp
        · exact g4 p (u1 p hp)
      · intro _
        have : ssNumUnits s = a.nUnits + b.nUnits := by simp [ssNumUnits, h]
        rw [ca.size, cb.size]
        omega

/-! ## Nuisance parameters -/

/-- The confidence-sequence width of the nuisance parameter is defined, at every level and for all constants. -/
def HasWidth (ops : EtaOps E (Cell ℝ) ℝ) (e : E) : Prop :=
  ∀ δ g r : ℝ, 0 < δ → δ < 1 → 0 < g → 0 < r → ∃ w, ops.csWidth e (.fin δ) (.fin g) (.fin r) = .ok (some w) ∧ w ≠ .nan ∧ w ≠ .ninf

/-- A nuisance parameter that can be fitted to and evaluated on good data. -/
structure SafeEta (ops : EtaOps E (Cell ℝ) ℝ) (D : ExpData (Cell ℝ) → Prop) (Inv : E → Prop) : Prop where
  fit : ∀ e d, Inv e → D d → ∃ e', ops.fit e d = (.ok (), e') ∧ Inv e' ∧ HasWidth ops e'
  enough : ∀ e, ∃ b, ops.hasEnough e = .ok b
  score : ∀ e d, Inv e → D d → ops.hasEnough e = .ok true → ∃ xs e', ops.score e d = (.ok (xs.map Fl.fin), e') ∧ xs ≠ [] ∧
    Inv e' ∧ ops.hasEnough e' = .ok true ∧ (HasWidth ops e → HasWidth ops e')

theorem maxStep_fin (x : ℝ) : ∃ z, Fl.maxStep (Fl.fin x) (.fin 0) = .fin z := by
  by_cases h : (Fl.fin x).lt (.fin 0) = true
  · exact ⟨0, by simp only [Fl.maxStep, h, if_true]⟩
  · exact ⟨x, by simp only [Fl.maxStep, h, Bool.false_eq_true, if_false]⟩

/-- the CLT interval is finite -/
theorem cltCi_fin (v a : ℝ) (xs : List ℝ) (hx : xs ≠ []) (δ : ℝ) (h0 : 0 < δ) (h1 : δ < 1) (j : ℕ) (hj : 0 < j) (n : ℕ) (hn : 0 < n) :
    ∃ lo hi, cltCi realLib (.fin v) (.fin a) (.fin δ) j (xs.map Fl.fin) n = (.fin lo, .fin hi) := by
  have hk1 : (1 : ℝ) ≤ j := by exact_mod_cast hj
  have hk2 : (1 : ℝ) ≤ j ^ 2 := one_le_pow₀ hk1
  have hn' : (0 : ℝ) < n := by exact_mod_cast hn
  have hd : 0 < δ / j ^ 2 := by positivity
  have hd1 : δ / (j : ℝ) ^ 2 < 1 := by
    rw [div_lt_one (by positivity)]; linarith
  unfold cltCi
  dsimp only
  rw [sqDev_fin, var_fin _ (by simpa using hx)]
  set q := pvar (xs.map fun x => (x - a) ^ 2) with hq
  have hq0 : 0 ≤ q := pvar_nonneg _
  rw [show (j : ℝ) * j = j ^ 2 from (pow_two _).symm, div_fin _ _ (by positivity : (j : ℝ) ^ 2 ≠ 0),
    div_fin _ _ hn'.ne', div_fin _ _ two_ne_zero]
  have hsq : realLib.sqrt (.fin (q / n)) = .fin (Real.sqrt (q / n)) := by
    have : ¬ q / n < 0 := not_lt.mpr (div_nonneg hq0 hn'.le)
    simp only [realLib, Fl.realSqrt, this, if_false]
  have hp1 : ∃ y, realLib.normPpf (.fin (δ / j ^ 2 / 2)) = .fin y := by
    have : 0 < δ / (j : ℝ) ^ 2 / 2 ∧ δ / (j : ℝ) ^ 2 / 2 < 1 := ⟨by positivity, by linarith⟩
    simp only [realLib, Fl.ppf, this, and_self, if_true]
    exact ⟨_, rfl⟩
  have hp2 : ∃ y, realLib.normPpf ((Fl.fin 1).sub (.fin (δ / j ^ 2 / 2))) = .fin y := by
    have : 0 < 1 - δ / (j : ℝ) ^ 2 / 2 ∧ 1 - δ / (j : ℝ) ^ 2 / 2 < 1 := ⟨by linarith, by linarith⟩
    simp only [Fl.sub, Fl.neg, Fl.add, ← sub_eq_add_neg, realLib, Fl.ppf, this, and_self, if_true]
    exact ⟨_, rfl⟩
  obtain ⟨y1, e1⟩ := hp1
  obtain ⟨y2, e2⟩ := hp2
  rw [hsq, e1, e2]
  obtain ⟨z, ez⟩ := maxStep_fin (v + y1 * Real.sqrt (q / n))
  exact ⟨z, v + y2 * Real.sqrt (q / n), by simp only [Fl.mul, Fl.add, ez]⟩

/-- What an arm looks like after an update that did not fail. -/
structure Fine (Inv : E → Prop) (k : Nat) (x0 x1 : Cell ℝ) (s : ArmState E (Cell ℝ) ℝ) : Prop where
  inv : Inv s.eta
  split : GoodSplit k x0 x1 s

/-- Estimates that can be used: an interval and a variance that are not NaN. -/
def Usable (s : ArmState E (Cell ℝ) ℝ) : Prop :=
  ∃ lo hi v, s.ci = (some lo, some hi) ∧ s.varEst = some v ∧ lo ≠ .nan ∧ hi ≠ .nan ∧ v ≠ .nan

theorem ssUpdate_safe {Inv : E → Prop} {ops : EtaOps E (Cell ℝ) ℝ} {x0 x1 : Cell ℝ} (he : SafeEta ops (GoodData k x0 x1 1) Inv)
    {cfg : SSConfig (Cell ℝ) ℝ} (hc : SafeConfig cfg) (rng : Rng W ℝ) (d : ExpData (Cell ℝ)) (delta : Fl ℝ)
    (hb : GoodBatch cfg.transform k x0 x1 (d, delta)) (s : ArmState E (Cell ℝ) ℝ) (hs : Fine Inv k x0 x1 s) (w : W) :
    ∃ lo hi s' w', ssUpdate cfg ops realLib rng d delta (s, w) = (.ok (lo, hi), s', w') ∧ lo ≠ .nan ∧ hi ≠ .nan ∧ Fine Inv k x0 x1 s' ∧ Usable s' := by
  obtain ⟨⟨t, ht, hg⟩, hδ⟩ := hb
  dsimp only at ht hδ
  rw [ssUpdate_valid cfg ops realLib rng d delta hδ]
  obtain ⟨f0, f1, w', ea, g0, g1, -⟩ := addData_good cfg.transform cfg.stable rng d t ht hg
    { s with numPulled := s.numPulled + 1, delta := some delta } w (by exact hs.split)
  rw [Py.bind_ok ea]
  obtain ⟨e1, hf, i1, wd1⟩ := he.fit s.eta f0 hs.inv g0
  obtain ⟨b, hbo⟩ := he.enough e1
  set s1 : ArmState E (Cell ℝ) ℝ := { s with numPulled := s.numPulled + 1, delta := some delta, split := some [f0, f1] } with hs1
  cases b with
  | false =>
    have := estimate_fwd (W := W) (lib := realLib) (cfg := cfg) (delta := delta) (s := s1) (Estimated.few [f0, f1] f0 e1 rfl rfl hf hbo) w'
    exact ⟨_, _, _, _, this, by simp, by simp, ⟨i1, Or.inr ⟨f0, f1, rfl, g0, g1⟩⟩, _, _, _, rfl, rfl, by simp, by simp, by simp⟩
  | true =>
    obtain ⟨xs, e2, sc1, hx, i2, b2, wd2⟩ := he.score e1 f1 i1 g1 hbo
    obtain ⟨ys, e3, sc2, hy, i3, b3, wd3⟩ := he.score e2 f1 i2 g1 b2
    have wd := wd3 (wd2 wd1)
    have hv : Fl.mean (sqDev (ys.map Fl.fin) (Fl.mean (xs.map Fl.fin))) = .fin (pmean (ys.map fun y => (y - pmean xs) ^ 2)) := by
      rw [mean_fin xs hx, sqDev_fin, mean_fin _ (by simpa using hy)]
    set v := pmean (ys.map fun y => (y - pmean xs) ^ 2) with hvd
    have hn : 0 < f1.nUnits := by
      obtain ⟨us, rfl, h1, -⟩ := g1
      rw [Obs.dataset_nUnits]; exact h1
    have done : ∀ lo hi e4, IntervalOf cfg ops realLib delta s1.numPulled f1 e3 (.fin v) (.fin (pmean xs)) lo hi e4 → lo ≠ .nan → hi ≠ .nan → Inv e4 →
        ∃ lo hi s' w'', ssEstimate cfg ops realLib delta (s1, w') = (.ok (lo, hi), s', w'') ∧ lo ≠ .nan ∧ hi ≠ .nan ∧ Fine Inv k x0 x1 s' ∧ Usable s' := by
      intro lo hi e4 hi' hlo hhi i4
      have := estimate_fwd (W := W) (lib := realLib) (cfg := cfg) (delta := delta) (s := s1)
        (Estimated.enough [f0, f1] f0 e1 f1 (xs.map Fl.fin) e2 (ys.map Fl.fin) e3 lo hi e4 rfl rfl hf hbo rfl sc1 sc2 (by rw [hv]; rfl)
          (by rw [hv, mean_fin xs hx]; exact hi')) w'
      exact ⟨_, _, _, _, this, hlo, hhi, ⟨i4, Or.inr ⟨f0, f1, rfl, g0, g1⟩⟩, _, _, _, rfl, rfl, hlo, hhi, by rw [hv]; simp⟩
    obtain ⟨δ, rfl, d0, d1⟩ := hδ
    cases hc with
    | clt halg =>
      obtain ⟨zs, e4, sc3, hz, i4, -, -⟩ := he.score e3 f1 i3 g1 b3
      obtain ⟨lo, hi, ec⟩ := cltCi_fin v (pmean xs) zs hz δ d0 d1 s1.numPulled (Nat.succ_pos _) f1.nUnits hn
      have := IntervalOf.clt (cfg := cfg) (ops := ops) (lib := realLib) (delta := .fin δ) (numPulled := s1.numPulled) (f1 := f1) (v := .fin v)
        (ate := .fin (pmean xs)) (zs.map Fl.fin) e4 halg sc3
      rw [ec] at this
      exact done _ _ _ this (by simp) (by simp) i4
    | finite g h τ m r halg c1 c2 c3 c4 c5 p1 p2 p3 p4 p5 p6 =>
      obtain ⟨ew, hw, w1, w2⟩ := wd (δ / 2) h r (by linarith) (by linarith) p3 p6
      have hle : ∀ x y : ℝ, y < x → (Fl.fin x).le (.fin y) = false := by
        intro x y hxy
        simp only [Fl.le, Fl.lt, Fl.eq, Bool.or_eq_false_iff, decide_eq_false_iff_not]
        exact ⟨not_lt.2 hxy.le, hxy.ne'⟩
      have hcs : ops.csWidth e3 ((Fl.fin δ).div (.fin 2)) cfg.etaSubG cfg.rho = .ok (some ew) := by
        rw [div_fin _ _ two_ne_zero, c2, c5, hw]
      by_cases hbi : (Fl.fin (f1.nUnits : ℝ)).lt cfg.burnIn = true
      · exact done _ _ _ (.burnIn (some ew) halg (by rw [c3]; exact hle _ _ p4) (by rw [c4]; exact hle _ _ p5) (by rw [c1]; exact hle _ _ p1) hcs hbi)
          (by simp) (by simp) i3
      · rw [Bool.not_eq_true] at hbi
        have hmn : m ≤ (f1.nUnits : ℝ) := by
          rw [c4] at hbi
          simpa [Fl.lt] using hbi
        have hwid := fsWidth_eq g τ m δ f1.nUnits ew p1 p5 d0 hn
        rw [if_neg (not_lt.2 (fsInner_nonneg g m δ f1.nUnits p2 p5 hmn d0 d1))] at hwid
        have key := IntervalOf.finite (cfg := cfg) (ops := ops) (lib := realLib) (delta := .fin δ) (numPulled := s1.numPulled) (f1 := f1) (e := e3)
          (v := .fin v) (ate := .fin (pmean xs)) ew halg (by rw [c3]; exact hle _ _ p4) (by rw [c4]; exact hle _ _ p5) (by rw [c1]; exact hle _ _ p1) hcs hbi
        rw [c1, c3, c4, hwid] at key
        refine done _ _ _ key ?_ ?_ i3
        · cases ew with
          | nan => exact absurd rfl w1
          | ninf => exact absurd rfl w2
          | pinf => simp [Fl.sq, Fl.mul, Fl.add, Fl.sub, Fl.neg, Fl.maxStep, Fl.lt]
          | fin y =>
            simp only [Fl.sq, Fl.mul, Fl.add, Fl.sub, Fl.neg]
            obtain ⟨z, ez⟩ := maxStep_fin (v + -(fsHalfWidth g τ m δ f1.nUnits + y * y))
            rw [ez]; simp
        · cases ew with
          | nan => exact absurd rfl w1
          | ninf => exact absurd rfl w2
          | pinf => simp [Fl.sq, Fl.mul, Fl.add]
          | fin y => simp [Fl.sq, Fl.mul, Fl.add]

/-- an arm that keeps its data counts the units of every batch -/
theorem ssUpdate_counts (ops : EtaOps E (Cell ℝ) ℝ) {x0 x1 : Cell ℝ} {cfg : SSConfig (Cell ℝ) ℝ} (hst : cfg.stable = true) (lib : Libm ℝ) (rng : Rng W ℝ)
    {d t : ExpData (Cell ℝ)} {delta : Fl ℝ} (ht : cfg.transform d = .ok t) (hg : GoodData k x0 x1 2 t) (hδ : ValidDelta delta) (s : ArmState E (Cell ℝ) ℝ)
    (hs : GoodSplit k x0 x1 s) (w : W) : ssNumUnits (ssUpdate cfg ops lib rng d delta (s, w)).2.1 = ssNumUnits s + t.nUnits := by
  obtain ⟨f0, f1, w', ea, -, -, hn⟩ := addData_good cfg.transform cfg.stable rng d t ht hg { s with numPulled := s.numPulled + 1, delta := some delta } w hs
  have := (ssUpdate_after cfg ops lib rng d delta hδ s w w' (some [f0, f1]) ea).2.1
  have hn := hn hst
  simp only [ssNumUnits, this, List.map_cons, List.map_nil, List.sum_cons, List.sum_nil] at hn ⊢
  exact hn

end Arm

/-! ## The two classes -/
section Classes
variable {k : Nat} {x0 x1 : Cell ℝ}

/-- both exposures occur when the fit is not skipped -/
theorem both_of_enough (h0 : x0.val = 0) (h1 : x1.val = 1) (us : List (Obs ℝ)) (hu : ∀ u ∈ us, u.z.length = k ∧ (u.x = x0 ∨ u.x = x1)) {m : Int} (hm : 1 ≤ m)
    (h : tooFew m (Obs.dataset k us).nUnits (us.map Obs.x) = false) : (∃ u ∈ us, u.x = x0) ∧ ∃ u ∈ us, u.x = x1 := by
  have hbin : ∀ u ∈ us, u.Binary := fun u hu' => by
    rcases (hu u hu').2 with e | e
    · exact Or.inl (by rw [Obs.xv, e, h0])
    · exact Or.inr (by rw [Obs.xv, e, h1])
  have := (Obs.tooFew_iff us hbin m k).not.1 (by rw [h]; simp)
  rw [not_not] at this
  constructor
  · have hp : 0 < Obs.control us := by have := this.2; omega
    obtain ⟨u, hu', e⟩ := List.countP_pos_iff.1 hp
    refine ⟨u, hu', ((hu u hu').2).resolve_right fun e' => ?_⟩
    simp [Obs.xv, e', h1] at e
  · have hp : 0 < Obs.treated us := by have := this.1; omega
    obtain ⟨u, hu', e⟩ := List.countP_pos_iff.1 hp
    refine ⟨u, hu', ((hu u hu').2).resolve_left fun e' => ?_⟩
    simp [Obs.xv, e', h0] at e

namespace AIPW
variable {M P : Type}

/-- The configuration of an AIPW parameter that can be used. -/
structure SafeCfg (k : Nat) (s : AIPW M P ℝ) : Prop where
  dim : s.covDim = k
  pos : 1 ≤ k
  units : 1 ≤ s.minUnits
  tiny : tiny ≤ s.minOverlap
  half : s.minOverlap < 1 / 2

theorem hasWidth {R : Predictor M ℝ} {C : Predictor P ℝ} {s : AIPW M P ℝ} (hs : SafeCfg k s) (us : List (Obs ℝ)) (h : s.recent = some (Obs.dataset k us)) :
    Arm.HasWidth (ops R C) s := by
  intro δ g r d0 d1 hg hr
  have hp : (0 : ℝ) < s.minOverlap := lt_of_lt_of_le (by unfold AIPW.tiny; positivity) hs.tiny
  obtain ⟨c1, c2⟩ := C55_aipw s (by rw [hs.dim]; exact hs.pos) k us h δ g r hg hr d0 d1 hp (by linarith [hs.half])
  by_cases hv : (secondMoments (us.map Obs.zv) s.covDim).det = 0
  · exact ⟨.pinf, by simp [ops, c2 hv hs.half, Except.map], by simp, by simp⟩
  · obtain ⟨m, -, -, -, e, -⟩ := c1 hv
    refine ⟨_, by simp only [ops, e, Except.map]; rfl, by simp, by simp⟩

theorem safe (R : Predictor M ℝ) (C : Predictor P ℝ) (hR : R.Total) (hC : C.FitsBothClasses) (h0 : x0.val = 0) (h1 : x1.val = 1) :
    Arm.SafeEta (ops R C) (GoodData k x0 x1 1) (SafeCfg k) where
  fit := by
    rintro s _ hs ⟨us, rfl, hn, hu⟩
    have hc := hs
    obtain ⟨rfl, hk, hm, ht, hh⟩ := hs
    have hne : us ≠ [] := by rintro rfl; simp at hn
    cases hf : tooFew s.minUnits (Obs.dataset s.covDim us).nUnits (us.map Obs.x) with
    | true =>
      have e := fit_few R C us s hf
      have hc' : SafeCfg s.covDim { s with recent := some (Obs.dataset s.covDim us) } := ⟨rfl, hk, hm, ht, hh⟩
      exact ⟨_, e, hc', hasWidth hc' us rfl⟩
    | false =>
      obtain ⟨⟨a, ha, ea⟩, b, hb, eb⟩ := both_of_enough h0 h1 us hu hm hf
      have e := fit_enough R C us s hf
      have r1 : (R.fitRows (us.map fun u => u.xv :: u.zv) (us.map Obs.yv) s.response).1 = .ok () := by
        unfold Predictor.fitRows
        rw [if_neg (by simp [hne])]
        exact hR _ _ _ (by simpa using hne) (by simp)
      have r2 : (C.fitRows (us.map Obs.zv) (us.map Obs.xv) s.propensity).1 = .ok () := by
        unfold Predictor.fitRows
        rw [if_neg (by simp [hne])]
        refine hC _ _ _ (by simp) ?_ ?_ ?_
        · intro y hy
          obtain ⟨u, hu', rfl⟩ := List.mem_map.1 hy
          exact (hu u hu').2.imp (fun e => by rw [Obs.xv, e, h0]) (fun e => by rw [Obs.xv, e, h1])
        · exact List.mem_map.2 ⟨a, ha, by rw [Obs.xv, ea, h0]⟩
        · exact List.mem_map.2 ⟨b, hb, by rw [Obs.xv, eb, h1]⟩
      obtain ⟨x, m, em⟩ : ∃ x m, R.fitRows (us.map fun u => u.xv :: u.zv) (us.map Obs.yv) s.response = (x, m) := ⟨_, _, rfl⟩
      obtain ⟨y, p, ep⟩ : ∃ x m, C.fitRows (us.map Obs.zv) (us.map Obs.xv) s.propensity = (x, m) := ⟨_, _, rfl⟩
      rw [em] at r1
      rw [ep] at r2
      dsimp only at r1 r2
      subst r1 r2
      simp only [em, ep] at e
      have hc' : SafeCfg s.covDim { s with recent := some (Obs.dataset s.covDim us), response := m, propensity := p, hasBeenFit := true } := ⟨rfl, hk, hm, ht, hh⟩
      exact ⟨_, e, hc', hasWidth hc' us rfl⟩
  enough := fun s => ⟨_, rfl⟩
  score := by
    rintro s _ hs ⟨us, rfl, hn, hu⟩ hf
    have hne : us ≠ [] := by rintro rfl; simp at hn
    have hfit : s.hasBeenFit = true := by simpa [ops] using hf
    have e := score_dataset R C s us hfit hne hs.tiny hs.half.le
    rw [hs.dim] at e
    refine ⟨us.map (aipwScore (fun x z => R.predict s.response (x :: z)) (eHat C s)), s, ?_, by simpa using hne, hs, hf, id⟩
    simp only [ops, e, List.map_map]
    rfl

end AIPW

namespace FrontDoor
variable {M : Type}

/-- The state of a front-door parameter that can be used. -/
structure SafeState (k : Nat) (x0 x1 : Cell ℝ) (s : FrontDoor M ℝ) : Prop where
  dim : s.covDim = k
  pos : 1 ≤ k
  units : 1 ≤ s.minUnits
  overlap : 0 < s.minOverlap
  half : s.minOverlap ≤ 1 / 2
  ratio : s.cpd.ratio ≠ 0
  cfg : s.ratio ≠ 0
  xs : ∀ x ∈ s.cpd.xValues, x = x0.key ∨ x = x1.key
  zs : ∀ z ∈ s.cpd.zValues, z ≠ []
  xnd : s.cpd.xValues.Nodup
  znd : s.cpd.zValues.Nodup
  q : s.minOverlap ≤ s.expProb ∧ s.expProb ≤ 1 - s.minOverlap

theorem safeState_new (ridge0 : M) (hk : 1 ≤ k) (n : Int) (hn : 1 ≤ n) (mo ratio : ℝ) (h1 : 0 < mo) (h2 : mo ≤ 1 / 2) (hr : ratio ≠ 0) :
    SafeState k x0 x1 (new ridge0 k n mo ratio) :=
  ⟨rfl, hk, hn, h1, h2, hr, hr, by simp [new, Tab.new], by simp [new, Tab.new], by simp [new, Tab.new], by simp [new, Tab.new],
    by simp only [new]; constructor <;> linarith⟩

theorem hasWidth {R : Predictor M ℝ} {ridge0 : M} {s : FrontDoor M ℝ} (hs : SafeState k x0 x1 s) (us : List (Obs ℝ)) (h : s.recent = some (Obs.dataset k us)) :
    Arm.HasWidth (ops R ridge0) s := by
  intro δ g r d0 d1 hg hr
  obtain ⟨c1, c2⟩ := C55_frontdoor s k us h δ g r hg hr d0 d1 hs.overlap (by linarith [hs.half])
  by_cases hv : (secondMoments (us.map fun u => u.xv :: u.zv) (s.covDim + 1)).det = 0 ∨ (us.length : ℝ) ≤ (δ / 3 / 3) ^ 2 / 4 / r
  · exact ⟨.pinf, by simp [ops, c2 hv, Except.map], by simp, by simp⟩
  · rw [not_or, not_le] at hv
    obtain ⟨m, t, -, -, -, -, -, e⟩ := c1 hv.1 hv.2
    refine ⟨_, by simp only [ops, e, Except.map]; rfl, by simp, by simp⟩

theorem safe (R : Predictor M ℝ) (ridge0 : M) (hR : R.Total) (h0 : x0.val = 0) (h1 : x1.val = 1) :
    Arm.SafeEta (ops R ridge0) (GoodData k x0 x1 1) (SafeState k x0 x1) where
  fit := by
    rintro s _ hs ⟨us, rfl, hn, hu⟩
    have hc := hs
    obtain ⟨rfl, hk, hm, ht, hh, hr, hr', hx, hz, hxn, hzn, hq⟩ := hs
    have hne : us ≠ [] := by rintro rfl; simp at hn
    cases hf : tooFew s.minUnits (Obs.dataset s.covDim us).nUnits (us.map Obs.x) with
    | true =>
      have e := fit_few R us s hf
      have hc' : SafeState s.covDim x0 x1 { s with recent := some (Obs.dataset s.covDim us) } := ⟨rfl, hk, hm, ht, hh, hr, hr', hx, hz, hxn, hzn, hq⟩
      exact ⟨_, e, hc', hasWidth hc' us rfl⟩
    | false =>
      obtain ⟨⟨a, ha, ea⟩, b, hb, eb⟩ := both_of_enough h0 h1 us hu hm hf
      have e := fit_enough R us s hf
      have r1 : (R.fitRows (us.map fun u => u.xv :: u.zv) (us.map Obs.yv) s.yResponse).1 = .ok () := by
        unfold Predictor.fitRows
        rw [if_neg (by simp [hne])]
        exact hR _ _ _ (by simpa using hne) (by simp)
      obtain ⟨x, m, em⟩ : ∃ x m, R.fitRows (us.map fun u => u.xv :: u.zv) (us.map Obs.yv) s.yResponse = (x, m) := ⟨_, _, rfl⟩
      rw [em] at r1
      dsimp only at r1
      subst r1
      have hold : ∀ x ∈ s.cpd.xValues, x ∈ (us.map fun u => (u.x.key, rowKey u.z)).map Prod.fst := by
        intro x hx'
        rw [List.map_map]
        rcases hx x hx' with rfl | rfl
        · exact List.mem_map.2 ⟨a, ha, by simp [ea]⟩
        · exact List.mem_map.2 ⟨b, hb, by simp [eb]⟩
      obtain ⟨t, et, -, t2, t3, t4, -⟩ := Tab.fit_spec s.cpd hxn hzn (us.map fun u => (u.x.key, rowKey u.z)) hr (by simpa using hne) hold
      simp only [List.map_map, Function.comp_def] at et t3 t4
      simp only [em, et] at e
      have hc' : SafeState s.covDim x0 x1
          { s with recent := some (Obs.dataset s.covDim us), yResponse := m, expProb := qOf s us, cpd := t, hasBeenFit := true } := by
        refine ⟨rfl, hk, hm, ht, hh, by simpa [t2] using hr, hr', ?_, ?_, ?_, ?_, ?_⟩
        · intro x hx'
          simp only [t4, Tab.mem_mergeKeys] at hx'
          rcases hx' with h' | h'
          · exact hx x h'
          · obtain ⟨u, hu', rfl⟩ := List.mem_map.1 h'
            exact (hu u hu').2.imp (fun e => by rw [e]) (fun e => by rw [e])
        · intro z hz'
          simp only [t3, Tab.mem_mergeKeys] at hz'
          rcases hz' with h' | h'
          · exact hz z h'
          · obtain ⟨u, hu', rfl⟩ := List.mem_map.1 h'
            intro hnil
            have := congrArg List.length hnil
            simp only [rowKey, List.length_map, List.length_nil, (hu u hu').1] at this
            omega
        · simp only [t4]; exact Tab.nodup_mergeKeys _ _ hxn
        · simp only [t3]; exact Tab.nodup_mergeKeys _ _ hzn
        · exact AIPW.clip_mem (by dsimp only; linarith)
      exact ⟨_, e, hc', hasWidth hc' us rfl⟩
  enough := fun s => ⟨_, rfl⟩
  score := by
    rintro s _ hs ⟨us, rfl, hn, hu⟩ hf
    have hne : us ≠ [] := by rintro rfl; simp at hn
    have hfit : s.hasBeenFit = true := by simpa [ops] using hf
    obtain ⟨rfl, i2, i3, i4, i5, i6, i7, i8, i9, i10, i11, i12⟩ := hs
    obtain ⟨t, ht, e⟩ := score_dataset R s us hfit hne i9 i4 i5 i12
    have e' : ∃ f : Obs ℝ → ℝ, (ops R ridge0).score s (Obs.dataset s.covDim us) = (.ok ((us.map f).map Fl.fin), { s with cpd := t }) :=
      ⟨_, e.trans (by rw [List.map_map]; rfl)⟩
    obtain ⟨f, e'⟩ := e'
    refine ⟨_, _, e', by simpa using hne, ⟨rfl, i2, i3, i4, i5, ?_, i7, ?_, ?_, ?_, ?_, i12⟩, hf, fun h => h⟩
    · dsimp only; rw [ht.ratio]; exact i6
    · dsimp only; rw [ht.xValues]; exact i8
    · dsimp only; rw [ht.zValues]; exact i9
    · dsimp only; rw [ht.xValues]; exact i10
    · dsimp only; rw [ht.zValues]; exact i11

end FrontDoor
end Classes
end Verif
