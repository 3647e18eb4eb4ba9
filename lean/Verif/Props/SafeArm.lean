import Verif.Lemmas.SafeArm

/-!
# C79: updates of the sample-splitting arms of the paper do not raise
-/

set_option linter.unusedSectionVars false
set_option linter.unusedSimpArgs false

namespace Verif
open Param
namespace Arm
open ExpData
variable {E W M P : Type} {k : Nat} {x0 x1 : Cell ℝ}

/-- An update that returned an interval whose ends are numbers or infinite. -/
def Returned (r : Except PyErr (Fl ℝ × Fl ℝ)) : Prop := ∃ lo hi, r = .ok (lo, hi) ∧ lo ≠ .nan ∧ hi ≠ .nan

theorem run_safe {Inv : E → Prop} {ops : EtaOps E (Cell ℝ) ℝ} (he : SafeEta ops (GoodData k x0 x1 1) Inv)
    {cfg : SSConfig (Cell ℝ) ℝ} (hc : SafeConfig cfg) (rng : Rng W ℝ) (hist : List (ExpData (Cell ℝ) × Fl ℝ))
    (hb : ∀ b ∈ hist, GoodBatch cfg.transform k x0 x1 b) (s : ArmState E (Cell ℝ) ℝ) (hs : Fine Inv k x0 x1 s) (w : W) :
    (∀ r ∈ (runUpdates (ssUpdate cfg ops realLib rng) hist (s, w)).1, Returned r) ∧
    (hist ≠ [] ∨ Usable s → Usable (runUpdates (ssUpdate cfg ops realLib rng) hist (s, w)).2.1) := by
  induction hist generalizing s w with
  | nil => exact ⟨by simp [runUpdates], by simp [runUpdates]⟩
  | cons b hist ih =>
    obtain ⟨d, δ⟩ := b
    obtain ⟨lo, hi, s', w', e, h1, h2, h3, h4⟩ := ssUpdate_safe he hc rng d δ (hb _ List.mem_cons_self) s hs w
    obtain ⟨i1, i2⟩ := ih (fun b hb' => hb b (List.mem_cons_of_mem _ hb')) s' h3 w'
    simp only [runUpdates, e, List.mem_cons]
    exact ⟨by
      rintro r (rfl | hr)
      · exact ⟨lo, hi, rfl, h1, h2⟩
      · exact i1 r hr, fun _ => i2 (Or.inr h4)⟩

/-- **C79 for arms with an AIPW parameter** Let `Ridge.fit` accept all nonempty data and `LogisticRegression.fit` all data with both classes.
Then for every new arm with at least one covariate column, `min_units ≥ 1`, an overlap bound in `[1e-15, 1/2)` and CLT intervals or
finite-sample intervals with constants in range, and for every sequence of batches of two or more units: no update raises, every update
returns an interval without NaN, and the estimates of the arm (interval, variance) are not NaN afterwards. -/
theorem C79_aipw (R : Predictor M ℝ) (C : Predictor P ℝ) (hR : R.Total) (hC : C.FitsBothClasses) (h0 : x0.val = 0) (h1 : x1.val = 1) (hk : 1 ≤ k)
    {n : Int} (hn : 1 ≤ n) {mo : ℝ} (ho : AIPW.tiny ≤ mo) (ho' : mo < 1 / 2) (m : M) (p : P) {cfg : SSConfig (Cell ℝ) ℝ} (hc : SafeConfig cfg) (rng : Rng W ℝ)
    (hist : List (ExpData (Cell ℝ) × Fl ℝ)) (hb : ∀ b ∈ hist, GoodBatch cfg.transform k x0 x1 b) (w : W) :
    let out := runUpdates (ssUpdate cfg (AIPW.ops R C) realLib rng) hist (init (AIPW.new k m p n mo), w)
    (∀ r ∈ out.1, Returned r) ∧ (hist ≠ [] → Usable out.2.1) := by
  have := run_safe (AIPW.safe (k := k) R C hR hC h0 h1) hc rng hist hb (init (AIPW.new k m p n mo)) ⟨⟨rfl, hk, hn, ho, ho'⟩, Or.inl rfl⟩ w
  exact ⟨this.1, fun h => this.2 (Or.inl h)⟩

/-- **C79 for arms with a front-door parameter** -/
theorem C79_frontdoor (R : Predictor M ℝ) (ridge0 : M) (hR : R.Total) (h0 : x0.val = 0) (h1 : x1.val = 1) (hk : 1 ≤ k)
    {n : Int} (hn : 1 ≤ n) {mo ratio : ℝ} (ho : 0 < mo) (ho' : mo ≤ 1 / 2) (hr : ratio ≠ 0) {cfg : SSConfig (Cell ℝ) ℝ} (hc : SafeConfig cfg) (rng : Rng W ℝ)
    (hist : List (ExpData (Cell ℝ) × Fl ℝ)) (hb : ∀ b ∈ hist, GoodBatch cfg.transform k x0 x1 b) (w : W) :
    let out := runUpdates (ssUpdate cfg (FrontDoor.ops R ridge0) realLib rng) hist (init (FrontDoor.new ridge0 k n mo ratio), w)
    (∀ r ∈ out.1, Returned r) ∧ (hist ≠ [] → Usable out.2.1) := by
  have := run_safe (FrontDoor.safe (k := k) R ridge0 hR h0 h1) hc rng hist hb (init (FrontDoor.new ridge0 k n mo ratio))
    ⟨FrontDoor.safeState_new ridge0 hk n hn mo ratio ho ho' hr, Or.inl rfl⟩ w
  exact ⟨this.1, fun h => this.2 (Or.inl h)⟩

/-! ### Batches of one unit -/

/-- The units `us` are all in fold 0. -/
def Lopsided (k : Nat) (us : List (Obs ℝ)) (s : ArmState E (Cell ℝ) ℝ) : Prop :=
  (s.split = none ∧ us = []) ∨ s.split = some [Obs.dataset k us, Obs.dataset k []]

theorem kFold_single (u : Obs ℝ) (hu : u.z.length = k) (σ : Equiv.Perm (Fin (Obs.dataset k [u]).nUnits)) :
    (Obs.dataset k [u]).kFold 2 σ = .ok [Obs.dataset k [u], Obs.dataset k []] := by
  have hw : (Obs.dataset k [u]).WF := Obs.dataset_wf _ (by simpa using hu)
  obtain ⟨f0, f1, e, w0, w1, k0, k1, n0, n1, u0, u1⟩ := kFold_halves (Obs.dataset k [u]) hw σ
  have hn : (Obs.dataset k [u]).nUnits = 1 := by rw [Obs.dataset_nUnits]; rfl
  rw [hn] at n0 n1
  have shape : ∀ f : ExpData (Cell ℝ), f.WF → SameKind (Obs.dataset k [u]) f → ∃ vs, f = Obs.dataset k vs := by
    intro f hf hk
    have h2 : ∃ c rows, f.cov = some (.d2 c rows) := by
      have := hk.rank
      obtain ⟨a, ha, -⟩ := hf.cov
      rw [ha] at this ⊢
      cases a with
      | d1 xs => simp [Obs.dataset, ExpData.new, Arr.isD1] at this
      | d2 c rows => exact ⟨c, rows, rfl⟩
    obtain ⟨vs, e, -⟩ := Obs.eq_dataset f hf h2 (by rw [hk.exp]; rfl) (by rw [hk.rsp]; rfl)
    exact ⟨vs, by rw [show k = f.nFeatures from hk.nFeatures.symm]; exact e⟩
  obtain ⟨vs, rfl⟩ := shape f0 w0 k0
  obtain ⟨ws, rfl⟩ := shape f1 w1 k1
  rw [Obs.dataset_nUnits] at n0 n1
  have hws : ws = [] := List.length_eq_zero_iff.1 n1
  obtain ⟨v, rfl⟩ := List.length_eq_one_iff.1 n0
  have hv := u0 (some v.z, some v.x, some v.y) (by rw [Obs.dataset_units]; simp)
  rw [Obs.dataset_units] at hv
  simp only [List.map_cons, List.map_nil, List.mem_singleton, Prod.mk.injEq, Option.some.injEq] at hv
  have : v = u := by cases v; cases u; simp_all
  rw [e, this, hws]

theorem append_dataset (us vs : List (Obs ℝ)) (hu : ∀ u ∈ us, u.z.length = k) (hv : ∀ v ∈ vs, v.z.length = k) :
    (Obs.dataset k us).append (Obs.dataset k vs) = (.ok (), Obs.dataset k (us ++ vs)) := by
  have hk : SameKind (Obs.dataset k us) (Obs.dataset k vs) := ⟨rfl, rfl, rfl, rfl⟩
  obtain ⟨r, e, c⟩ := append_isConcat _ _ (Obs.dataset_wf us hu) (Obs.dataset_wf vs hv) hk.appendable
  have hun := c.units_eq hk
  have h2 : ∃ c rows, r.cov = some (.d2 c rows) := by
    have := c.kind.rank
    obtain ⟨a, ha, -⟩ := c.wf.cov
    rw [ha] at this ⊢
    cases a with
    | d1 xs => simp [Obs.dataset, ExpData.new, Arr.isD1] at this
    | d2 c rows => exact ⟨c, rows, rfl⟩
  obtain ⟨ws, ew, -⟩ := Obs.eq_dataset r c.wf h2 (by rw [c.kind.exp]; rfl) (by rw [c.kind.rsp]; rfl)
  rw [show r.nFeatures = k from c.kind.nFeatures] at ew
  subst ew
  rw [Obs.dataset_units, Obs.dataset_units, Obs.dataset_units, ← List.map_append] at hun
  have hinj : Function.Injective fun u : Obs ℝ => (some u.z, some u.x, some u.y) := by
    intro a b h
    simp only [Prod.mk.injEq, Option.some.injEq] at h
    cases a; cases b; simp_all
  rw [e, List.map_injective_iff.2 hinj hun]

theorem addData_single (transform : ExpData (Cell ℝ) → Except PyErr (ExpData (Cell ℝ))) (rng : Rng W ℝ) (d : ExpData (Cell ℝ)) (u : Obs ℝ)
    (ht : transform d = .ok (Obs.dataset k [u])) (hu : u.z.length = k) (us : List (Obs ℝ)) (hus : ∀ u ∈ us, u.z.length = k)
    (s : ArmState E (Cell ℝ) ℝ) (w : W) (hs : Lopsided k us s) :
    ∃ w', addData transform true rng d (s, w) = (.ok (), { s with split := some [Obs.dataset k (us ++ [u]), Obs.dataset k []] }, w') := by
  refine ⟨(rng.perm (Obs.dataset k [u]).nUnits w).2, ?_⟩
  have hfold : transformAndFold (E := E) transform rng d (s, w) =
      (.ok [Obs.dataset k [u], Obs.dataset k []], s, (rng.perm (Obs.dataset k [u]).nUnits w).2) := by
    simp only [transformAndFold, ht, kFold_single u hu]
  unfold addData
  rw [Py.bind_ok hfold, Py.bind_ok (Py.get_apply _)]
  rcases hs with ⟨h, rfl⟩ | h
  · simp only [h, Option.isSome_none, Bool.false_and, Bool.false_eq_true, if_false]
    rfl
  · simp only [h, Option.isSome_some, Bool.true_and, if_true]
    simp only [appendFolds, h, append_dataset us [u] hus (by simpa using hu), append_dataset [] [] (by simp) (by simp), List.nil_append]

theorem AIPW.score_empty (R : Predictor M ℝ) (C : Predictor P ℝ) (s : AIPW M P ℝ) (h : s.hasBeenFit = true) (hk : s.covDim = k) :
    AIPW.score R C s (Obs.dataset k []) = .error .valueError := by
  subst hk
  unfold AIPW.score AIPW.transform
  rw [Obs.dataset_cov2d]
  simp only [h, Bool.not_true, Bool.false_eq_true, if_false, Obs.dataset_nFeatures, ne_eq, not_true_eq_false, bind, Except.bind, List.map_nil,
    Predictor.predictRows, List.isEmpty_nil, if_true]

/-- one update with a batch of one unit -/
theorem update_single (R : Predictor M ℝ) (C : Predictor P ℝ) (hR : R.Total) (hC : C.FitsBothClasses) (h0 : x0.val = 0) (h1 : x1.val = 1)
    {cfg : SSConfig (Cell ℝ) ℝ} (hst : cfg.stable = true) (lib : Libm ℝ) (rng : Rng W ℝ) (d : ExpData (Cell ℝ)) (δ : Fl ℝ) (u : Obs ℝ)
    (ht : cfg.transform d = .ok (Obs.dataset k [u])) (hδ : ValidDelta δ) (us : List (Obs ℝ))
    (hus : ∀ v ∈ us ++ [u], v.z.length = k ∧ (v.x = x0 ∨ v.x = x1)) (s : ArmState (AIPW M P ℝ) (Cell ℝ) ℝ) (hs : Lopsided k us s)
    (hi : AIPW.SafeCfg k s.eta) (w : W) :
    ∃ r s' w', ssUpdate cfg (AIPW.ops R C) lib rng d δ (s, w) = (r, s', w') ∧ Lopsided k (us ++ [u]) s' ∧ AIPW.SafeCfg k s'.eta ∧ s'.eta.minUnits = s.eta.minUnits ∧
      (s.eta.minUnits ≤ Obs.treated (us ++ [u]) → s.eta.minUnits ≤ Obs.control (us ++ [u]) → r = .error .valueError) := by
  rw [ssUpdate_valid cfg _ lib rng d δ hδ]
  obtain ⟨w', ea⟩ := addData_single (E := AIPW M P ℝ) cfg.transform rng d u ht (hus u (by simp)).1 us (fun v hv => (hus v (by simp [hv])).1)
    { s with numPulled := s.numPulled + 1, delta := some δ } w (by exact hs)
  rw [hst, Py.bind_ok ea]
  obtain ⟨e', ef, i1, -⟩ := (AIPW.safe (k := k) R C hR hC h0 h1).fit s.eta (Obs.dataset k (us ++ [u])) hi ⟨_, rfl, by simp, hus⟩
  have hcfg := AIPW.fit_config R C k (us ++ [u]) s.eta
  have hfe : AIPW.fit R C (Obs.dataset k (us ++ [u])) s.eta = (.ok (), e') := ef
  rw [hfe] at hcfg
  have hbin : ∀ v ∈ us ++ [u], v.Binary := fun v hv => (hus v hv).2.imp (fun e => by rw [Obs.xv, e, h0]) (fun e => by rw [Obs.xv, e, h1])
  have hen : s.eta.minUnits ≤ Obs.treated (us ++ [u]) → s.eta.minUnits ≤ Obs.control (us ++ [u]) → e'.hasBeenFit = true := by
    intro a b
    have hf : tooFew s.eta.minUnits (Obs.dataset k (us ++ [u])).nUnits ((us ++ [u]).map Obs.x) = false := by
      rw [← Bool.not_eq_true, Obs.tooFew_iff _ hbin]; exact fun h => h ⟨a, b⟩
    have e := AIPW.fit_enough R C (us ++ [u]) s.eta (by rw [hi.dim]; exact hf)
    rw [hi.dim, hfe] at e
    split at e
    · cases e
    · split at e
      · cases e
      · obtain ⟨-, rfl⟩ := Prod.mk.inj e
        rfl
  unfold ssEstimate
  rw [Py.bind_ok (fold_ok (i := 0) (l := [Obs.dataset k (us ++ [u]), Obs.dataset k []]) rfl rfl), Py.bind_ok (etaFit_ok (s := { s with numPulled := s.numPulled + 1, delta := some δ, split := some [Obs.dataset k (us ++ [u]), Obs.dataset k []] }) ef),
    Py.bind_ok (Py.get_apply _)]
  dsimp only
  rw [show (AIPW.ops R C).hasEnough e' = .ok e'.hasBeenFit from rfl, Py.bind_ok (Py.lift_apply _ _)]
  cases hb : e'.hasBeenFit with
  | false =>
    refine ⟨_, _, _, rfl, Or.inr rfl, i1, hcfg.2.1, fun a b => ?_⟩
    rw [hen a b] at hb
    cases hb
  | true =>
    simp only [Bool.not_true, Bool.false_eq_true, if_false]
    rw [Py.bind_ok (fold_ok (i := 1) (l := [Obs.dataset k (us ++ [u]), Obs.dataset k []]) rfl rfl)]
    refine ⟨.error .valueError, { s with numPulled := s.numPulled + 1, delta := some δ, split := some [Obs.dataset k (us ++ [u]), Obs.dataset k []], eta := e' }, w',
      ?_, Or.inr rfl, i1, hcfg.2.1, fun _ _ => rfl⟩
    rw [Py.bind_apply]
    have : (AIPW.ops R C).score e' (Obs.dataset k []) = (.error .valueError, e') := by
      simp only [AIPW.ops, AIPW.score_empty R C e' hb i1.dim]
    simp only [etaScore, this]

theorem run_single (R : Predictor M ℝ) (C : Predictor P ℝ) (hR : R.Total) (hC : C.FitsBothClasses) (h0 : x0.val = 0) (h1 : x1.val = 1)
    {cfg : SSConfig (Cell ℝ) ℝ} (hst : cfg.stable = true) (lib : Libm ℝ) (rng : Rng W ℝ) (hist : List (ExpData (Cell ℝ) × Fl ℝ)) (vs : List (Obs ℝ))
    (hh : List.Forall₂ (fun b u => cfg.transform b.1 = .ok (Obs.dataset k [u]) ∧ ValidDelta b.2) hist vs) (us : List (Obs ℝ))
    (hus : ∀ v ∈ us ++ vs, v.z.length = k ∧ (v.x = x0 ∨ v.x = x1)) (s : ArmState (AIPW M P ℝ) (Cell ℝ) ℝ) (hs : Lopsided k us s)
    (hi : AIPW.SafeCfg k s.eta) (w : W) (hne : vs ≠ []) (ht : s.eta.minUnits ≤ Obs.treated (us ++ vs)) (hc : s.eta.minUnits ≤ Obs.control (us ++ vs)) :
    (runUpdates (ssUpdate cfg (AIPW.ops R C) lib rng) hist (s, w)).1.getLast? = some (.error .valueError) := by
  induction hh generalizing us s w with
  | nil => exact absurd rfl hne
  | @cons b u hist vs hb hh ih =>
    obtain ⟨d, δ⟩ := b
    obtain ⟨r, s', w', e, i1, i2, i3, i4⟩ := update_single R C hR hC h0 h1 hst lib rng d δ u hb.1 hb.2 us
      (fun v hv => hus v (by simp only [List.mem_append, List.mem_singleton, List.mem_cons] at hv ⊢; tauto)) s hs hi w
    simp only [runUpdates, e]
    cases vs with
    | nil =>
      cases hh
      simp only [runUpdates, List.getLast?_singleton]
      rw [i4 ht hc]
    | cons v vs =>
      have := ih (us ++ [u]) (by simpa using hus) s' i1 i2 w' (by simp) (by rw [i3]; simpa using ht) (by rw [i3]; simpa using hc)
      rw [List.getLast?_cons, this]
      rfl

/-- **C79 (violated)** Batches of one unit: `k_fold(2)` always files the unit in fold 0, so that fold 1 stays empty and an arm that stores its data raises
`ValueError` as soon as its data contain `min_units` treated and `min_units` control units. -/
theorem C79_single_violated (R : Predictor M ℝ) (C : Predictor P ℝ) (hR : R.Total) (hC : C.FitsBothClasses) (h0 : x0.val = 0) (h1 : x1.val = 1) (hk : 1 ≤ k)
    {n : Int} (hn : 1 ≤ n) {mo : ℝ} (ho : AIPW.tiny ≤ mo) (ho' : mo < 1 / 2) (m : M) (p : P) {cfg : SSConfig (Cell ℝ) ℝ} (hst : cfg.stable = true)
    (lib : Libm ℝ) (rng : Rng W ℝ) (hist : List (ExpData (Cell ℝ) × Fl ℝ)) (us : List (Obs ℝ))
    (hh : List.Forall₂ (fun b u => cfg.transform b.1 = .ok (Obs.dataset k [u]) ∧ ValidDelta b.2) hist us)
    (hus : ∀ v ∈ us, v.z.length = k ∧ (v.x = x0 ∨ v.x = x1)) (ht : n ≤ Obs.treated us) (hc : n ≤ Obs.control us) (w : W) :
    (runUpdates (ssUpdate cfg (AIPW.ops R C) lib rng) hist (init (AIPW.new k m p n mo), w)).1.getLast? = some (.error .valueError) := by
  refine run_single R C hR hC h0 h1 hst lib rng hist us hh [] (by simpa using hus) _ (Or.inl ⟨rfl, rfl⟩) ⟨rfl, hk, hn, ho, ho'⟩ w ?_ ht hc
  rintro rfl
  simp only [Obs.treated, List.countP_nil] at ht
  norm_num at ht
  omega

/-! A case: a regression that predicts the mean response, a classifier that (as sklearn's) refuses a single class, and batches of two treated and two
control units with one covariate. -/

/-- predicts the mean of the responses -/
noncomputable def meanRidge : Predictor ℝ ℝ := ⟨fun _ _ ys => (.ok (), ys.sum / ys.length), fun m _ => m, fun _ => 0⟩

open Classical in
/-- raises unless both classes are present -/
noncomputable def fairLogistic : Predictor Unit ℝ :=
  ⟨fun _ _ ys => (if (0 : ℝ) ∈ ys ∧ (1 : ℝ) ∈ ys then .ok () else .error .valueError, ()), fun _ _ => 1 / 2, id⟩

theorem meanRidge_total : meanRidge.Total := fun _ _ _ _ _ => rfl
theorem fairLogistic_fits : fairLogistic.FitsBothClasses := fun _ _ _ _ _ h0 h1 => by simp [fairLogistic, h0, h1]

/-- a unit with one covariate -/
def unitOf (z : ℝ) (x : Int) (y : ℝ) : Obs ℝ := ⟨[.flt z], .int x, .flt y⟩

/-- two treated and two control units -/
def fourUnits : List (Obs ℝ) := [unitOf 1 0 2, unitOf 2 1 5, unitOf 3 1 6, unitOf 4 0 3]

theorem fourUnits_good : GoodData 1 (.int 0) (.int 1) 2 (Obs.dataset 1 fourUnits) :=
  ⟨_, rfl, by simp [fourUnits], by simp [fourUnits, unitOf]⟩

/-- an arm with finite-sample intervals -/
noncomputable def fsArm : SSConfig (Cell ℝ) ℝ := ⟨.ok, .finiteSample, true, .fin 1, .fin 1, .fin 2, .fin 1000, .fin 1⟩

theorem fsArm_safe : SafeConfig fsArm := .finite 1 1 2 1000 1 rfl rfl rfl rfl rfl rfl (by norm_num) (by norm_num) (by norm_num) (by norm_num) (by norm_num) (by norm_num)

example (rng : Rng W ℝ) (w : W) :
    let out := runUpdates (ssUpdate fsArm (AIPW.ops meanRidge fairLogistic) realLib rng)
      [(Obs.dataset 1 fourUnits, .fin (1 / 20)), (Obs.dataset 1 fourUnits, .fin (1 / 30))] (init (AIPW.new 1 0 () 1 (1 / 4)), w)
    (∀ r ∈ out.1, Returned r) ∧ Usable out.2.1 := by
  have := C79_aipw (x0 := .int 0) (x1 := .int 1) meanRidge fairLogistic meanRidge_total fairLogistic_fits (by simp [Cell.val]) (by simp [Cell.val]) (le_refl 1) (le_refl (1 : Int))
    (mo := 1 / 4) (by unfold AIPW.tiny; norm_num) (by norm_num) 0 () fsArm_safe rng
    [(Obs.dataset 1 fourUnits, .fin (1 / 20)), (Obs.dataset 1 fourUnits, .fin (1 / 30))] (by
      intro b hb
      simp only [List.mem_cons, List.not_mem_nil, or_false] at hb
      rcases hb with rfl | rfl
      · exact ⟨⟨_, rfl, fourUnits_good⟩, 1 / 20, rfl, by norm_num, by norm_num⟩
      · exact ⟨⟨_, rfl, fourUnits_good⟩, 1 / 30, rfl, by norm_num, by norm_num⟩) w
  exact ⟨this.1, this.2 (by simp)⟩

example (rng : Rng W ℝ) (w : W) :
    let out := runUpdates (ssUpdate { fsArm with alg := .clt } (FrontDoor.ops meanRidge 0) realLib rng)
      [(Obs.dataset 1 fourUnits, .fin (1 / 20)), (Obs.dataset 1 fourUnits, .fin (1 / 30))] (init (FrontDoor.new 0 1 1 (1 / 4) 10), w)
    (∀ r ∈ out.1, Returned r) ∧ Usable out.2.1 := by
  have := C79_frontdoor (x0 := .int 0) (x1 := .int 1) meanRidge 0 meanRidge_total (by simp [Cell.val]) (by simp [Cell.val]) (le_refl 1) (le_refl (1 : Int))
    (mo := 1 / 4) (ratio := 10) (by norm_num) (by norm_num) (by norm_num) (cfg := { fsArm with alg := .clt }) (.clt rfl) rng
    [(Obs.dataset 1 fourUnits, .fin (1 / 20)), (Obs.dataset 1 fourUnits, .fin (1 / 30))] (by
      intro b hb
      simp only [List.mem_cons, List.not_mem_nil, or_false] at hb
      rcases hb with rfl | rfl
      · exact ⟨⟨_, rfl, fourUnits_good⟩, 1 / 20, rfl, by norm_num, by norm_num⟩
      · exact ⟨⟨_, rfl, fourUnits_good⟩, 1 / 30, rfl, by norm_num, by norm_num⟩) w
  exact ⟨this.1, this.2 (by simp)⟩

/-- the first batch of one unit that makes the data complete is refused -/
example (lib : Libm ℝ) (rng : Rng W ℝ) (w : W) :
    (runUpdates (ssUpdate fsArm (AIPW.ops meanRidge fairLogistic) lib rng)
      [(Obs.dataset 1 [unitOf 1 0 2], .fin (1 / 20)), (Obs.dataset 1 [unitOf 2 1 5], .fin (1 / 20))] (init (AIPW.new 1 0 () 1 (1 / 4)), w)).1.getLast? =
      some (.error .valueError) :=
  C79_single_violated (x0 := .int 0) (x1 := .int 1) meanRidge fairLogistic meanRidge_total fairLogistic_fits (by simp [Cell.val]) (by simp [Cell.val]) (le_refl 1) (le_refl (1 : Int))
    (by unfold AIPW.tiny; norm_num) (by norm_num) 0 () rfl lib rng _ [unitOf 1 0 2, unitOf 2 1 5]
    (.cons ⟨rfl, 1 / 20, rfl, by norm_num, by norm_num⟩ (.cons ⟨rfl, 1 / 20, rfl, by norm_num, by norm_num⟩ .nil))
    (by simp [unitOf]) (by simp [Obs.treated, unitOf, Obs.xv, Cell.val]) (by simp [Obs.control, unitOf, Obs.xv, Cell.val]) w

end Arm
end Verif
