import Verif.Lemmas.FrontDoor

/-!
# Invariants of `TabularCPD` and of `FrontDoorLinearFiniteZ` under arbitrary histories
-/

set_option linter.unusedSectionVars false
set_option linter.unusedSimpArgs false

namespace Verif
open Param

namespace Tab
variable {KX KZ α : Type} [DecidableEq KX] [DecidableEq KZ] [Field α] [LinearOrder α]

/-- All keys satisfy `PX`, `PZ`, and everything else has probability 0. -/
structure Keys (PX : KX → Prop) (PZ : KZ → Prop) (t : Tab KX KZ α) : Prop where
  xs : ∀ x ∈ t.xValues, PX x
  zs : ∀ z ∈ t.zValues, PZ z
  cell : ∀ x z, t.cell x z ≠ 0 → PX x ∧ PZ z

theorem Keys.same {PX : KX → Prop} {PZ : KZ → Prop} {t t' : Tab KX KZ α} (h : Keys PX PZ t) (hs : t.Same t') : Keys PX PZ t' :=
  ⟨by rw [hs.xValues]; exact h.xs, by rw [hs.zValues]; exact h.zs, fun x z hc => h.cell x z (by rwa [hs.cell] at hc)⟩

theorem keys_new (PX : KX → Prop) (PZ : KZ → Prop) (ratio : α) : Keys PX PZ (new ratio : Tab KX KZ α) :=
  ⟨by simp [new], by simp [new], fun x z h => absurd (by simp [new, Tab.cell, Dict.getD, Dict.get?]) h⟩

theorem rowLoop_other (mp N : α) (zs : List KZ) (s : Dict KZ α × List KZ × α) :
    (∀ z, z ∉ zs → (rowLoop mp N zs s).2.1.getD z 0 = s.1.getD z 0) ∧
    (∀ z ∈ (rowLoop mp N zs s).2.2.1, z ∈ s.2.1 ∨ z ∈ zs) := by
  induction zs generalizing s with
  | nil => exact ⟨fun _ _ => rfl, fun z hz => Or.inl hz⟩
  | cons z zs ih =>
    obtain ⟨row, nv, V⟩ := s
    unfold rowLoop
    split
    · exact ⟨fun z' _ => Dict.getD_touch _ _ _ _, fun z' hz' => Or.inl hz'⟩
    · dsimp only
      split
      · obtain ⟨i1, i2⟩ := ih (row.set z mp, nv, V + (mp - row.getD z 0 / N))
        refine ⟨fun z' hz' => ?_, fun z' hz' => ?_⟩
        · rw [i1 z' (fun h => hz' (List.mem_cons_of_mem _ h))]
          simp only [Dict.getD_set]
          rw [if_neg (fun e => hz' (by rw [e]; exact List.mem_cons_self))]
        · rcases i2 z' hz' with h | h
          · exact Or.inl h
          · exact Or.inr (List.mem_cons_of_mem _ h)
      · split
        · obtain ⟨i1, i2⟩ := ih (row.set z (1 - mp), nv, V + (row.getD z 0 / N - (1 - mp)))
          refine ⟨fun z' hz' => ?_, fun z' hz' => ?_⟩
          · rw [i1 z' (fun h => hz' (List.mem_cons_of_mem _ h))]
            simp only [Dict.getD_set]
            rw [if_neg (fun e => hz' (by rw [e]; exact List.mem_cons_self))]
          · rcases i2 z' hz' with h | h
            · exact Or.inl h
            · exact Or.inr (List.mem_cons_of_mem _ h)
        · obtain ⟨i1, i2⟩ := ih (row.set z (row.getD z 0 / N), nv ++ [z], V)
          refine ⟨fun z' hz' => ?_, fun z' hz' => ?_⟩
          · rw [i1 z' (fun h => hz' (List.mem_cons_of_mem _ h))]
            simp only [Dict.getD_set]
            rw [if_neg (fun e => hz' (by rw [e]; exact List.mem_cons_self))]
          · rcases i2 z' hz' with h | h
            · rcases List.mem_append.mp h with h | h
              · exact Or.inl h
              · exact Or.inr (by rw [List.mem_singleton.mp h]; exact List.mem_cons_self)
            · exact Or.inr (List.mem_cons_of_mem _ h)

theorem spread_other (nv : List KZ) (V : α) (row : Dict KZ α) (z : KZ) (hz : z ∉ nv) : (spread nv V row).getD z 0 = row.getD z 0 := by
  have : ∀ c : α, (nv.foldl (fun row z => row.set z (row.getD z 0 - c)) row).getD z 0 = row.getD z 0 := by
    intro c
    induction nv generalizing row with
    | nil => rfl
    | cons k nv ih =>
      rw [List.foldl_cons, ih _ (fun h => hz (List.mem_cons_of_mem _ h)), Dict.getD_set,
        if_neg (fun e => hz (by rw [e]; exact List.mem_cons_self))]
  exact this _

theorem normLoop_other (mp : α) (xs : List KX) (t : Tab KX KZ α) :
    (normLoop mp xs t).2.xValues = t.xValues ∧ (normLoop mp xs t).2.zValues = t.zValues ∧
    ∀ x z, x ∉ xs ∨ z ∉ t.zValues → (normLoop mp xs t).2.cell x z = t.cell x z := by
  induction xs generalizing t with
  | nil => exact ⟨rfl, rfl, fun _ _ _ => rfl⟩
  | cons k xs ih =>
    unfold normLoop
    dsimp only
    split
    · refine ⟨rfl, rfl, fun x z _ => ?_⟩
      simp only [Tab.cell, Dict.getD_touch]
    · obtain ⟨r1, r2⟩ := rowLoop_other mp (((t.table.getD k []).map Prod.snd).foldl (· + ·) 0) t.zValues (t.table.getD k [], [], 0)
      split
      · rename_i e row' nv V heq
        rw [heq] at r1
        refine ⟨rfl, rfl, fun x z hxz => ?_⟩
        simp only [Tab.cell, Dict.getD_set]
        split
        · rename_i hk
          subst hk
          rcases hxz with h | h
          · exact absurd List.mem_cons_self h
          · exact r1 z h
        · rw [Dict.getD_touch]
      · rename_i row' nv V heq
        rw [heq] at r1 r2
        have := ih { t with table := (t.table.touch k []).set k (spread nv V row'),
                            xMarginal := t.xMarginal.set k (((t.table.getD k []).map Prod.snd).foldl (· + ·) 0 / (t.nUnits : α)) }
        obtain ⟨i1, i2, i3⟩ := this
        refine ⟨i1, i2, fun x z hxz => ?_⟩
        have hxz' : x ∉ xs ∨ z ∉ t.zValues := hxz.imp (fun h h' => h (List.mem_cons_of_mem _ h')) id
        refine (i3 x z hxz').trans ?_
        simp only [Tab.cell, Dict.getD_set]
        split
        · rename_i hk
          subst hk
          rcases hxz with h | h
          · exact absurd List.mem_cons_self h
          · rw [spread_other _ _ _ _ (fun hm => by
              rcases r2 z hm with h' | h'
              · cases h'
              · exact h h')]
            exact r1 z h
        · rw [Dict.getD_touch]

/-- Whatever `fit` does, keys come from the data. -/
theorem Keys.fit {PX : KX → Prop} {PZ : KZ → Prop} {t : Tab KX KZ α} (h : Keys PX PZ t) (xs : List KX) (zs : List KZ)
    (hx : ∀ x ∈ xs, PX x) (hz : ∀ z ∈ zs, PZ z) : Keys PX PZ (t.fit xs zs).2 := by
  unfold Tab.fit
  split
  · exact h
  · dsimp only
    set t1 : Tab KX KZ α := { t with nUnits := xs.length, table := [], xMarginal := [] } with ht1
    obtain ⟨c1, -, c3, c4, -⟩ := count_fold (xs.zip zs) t1
    have hmx : ∀ x, x ∈ (xs.zip zs).map Prod.fst → PX x := by
      intro x hm
      obtain ⟨p, hp, rfl⟩ := List.mem_map.mp hm
      exact hx _ (List.of_mem_zip hp).1
    have hmz : ∀ z, z ∈ (xs.zip zs).map Prod.snd → PZ z := by
      intro z hm
      obtain ⟨p, hp, rfl⟩ := List.mem_map.mp hm
      exact hz _ (List.of_mem_zip hp).2
    have hk : Keys PX PZ ((xs.zip zs).foldl countStep t1) := by
      refine ⟨fun x hm => ?_, fun z hm => ?_, fun x z hc => ?_⟩
      · rcases (c3 x).mp hm with h' | h'
        · exact h.xs x h'
        · exact hmx x h'
      · rcases (c4 z).mp hm with h' | h'
        · exact h.zs z h'
        · exact hmz z h'
      · rw [c1] at hc
        have h0 : t1.cell x z = 0 := by simp [ht1, Tab.cell, Dict.getD, Dict.get?]
        rw [h0, zero_add] at hc
        have hm : (x, z) ∈ xs.zip zs := by
          by_contra hm
          exact hc (by rw [List.count_eq_zero.mpr hm, Nat.cast_zero])
        exact ⟨hx _ (List.of_mem_zip hm).1, hz _ (List.of_mem_zip hm).2⟩
    generalize (xs.zip zs).foldl countStep t1 = t2 at hk
    split
    · exact hk
    · split
      · exact hk
      · generalize (if 1 / (t2.zValues.length : α) / t2.ratio > 1 then (1 / 5 : α) else 1 / (t2.zValues.length : α) / t2.ratio) = mp
        obtain ⟨n1, n2, n3⟩ := normLoop_other mp t2.xValues { t2 with minProb := some mp }
        refine ⟨?_, ?_, fun x z hc => ?_⟩
        · intro x hm; exact hk.xs x (by rw [n1] at hm; exact hm)
        · intro z hm; exact hk.zs z (by rw [n2] at hm; exact hm)
        · by_cases hmem : x ∈ t2.xValues ∧ z ∈ t2.zValues
          · exact ⟨hk.xs x hmem.1, hk.zs z hmem.2⟩
          · rw [n3 x z (by rw [← not_and_or]; exact hmem)] at hc
            exact hk.cell x z hc

end Tab

namespace FrontDoor
variable {M α : Type} [Field α] [LinearOrder α]

theorem fit_wrong (R : Predictor M α) (d : ExpData (Cell α)) (s : FrontDoor M α) (h : d.nFeatures ≠ s.covDim) :
    fit R d s = (.error .valueError, s) := by
  simp [fit, Py.bind_apply, Py.get_apply, h, Py.raise_apply]

theorem fit_few (R : Predictor M α) (us : List (Obs α)) (s : FrontDoor M α)
    (h : tooFew s.minUnits (Obs.dataset s.covDim us).nUnits (us.map Obs.x) = true) :
    fit R (Obs.dataset s.covDim us) s = (.ok (), { s with recent := some (Obs.dataset s.covDim us) }) := by
  simp [fit, Py.bind_apply, Py.get_apply, Obs.dataset_nFeatures, Py.modify_apply, Py.lift_apply, Obs.dataset_exp, h, Py.pure_apply]

/-- The exposure probability learned from the units. -/
def qOf (s : FrontDoor M α) (us : List (Obs α)) : α :=
  clip ((us.map Obs.xv).sum / (us.length : α)) s.minOverlap (1 - s.minOverlap)

theorem fit_enough (R : Predictor M α) (us : List (Obs α)) (s : FrontDoor M α)
    (h : tooFew s.minUnits (Obs.dataset s.covDim us).nUnits (us.map Obs.x) = false) :
    fit R (Obs.dataset s.covDim us) s =
      match R.fitRows (us.map fun u => u.xv :: u.zv) (us.map Obs.yv) s.yResponse with
      | (.error e, m) => (.error e, { s with recent := some (Obs.dataset s.covDim us), yResponse := m })
      | (.ok (), m) =>
        match s.cpd.fit (us.map fun u => u.x.key) (us.map fun u => rowKey u.z) with
        | (.error e, t) => (.error e, { s with recent := some (Obs.dataset s.covDim us), yResponse := m, expProb := qOf s us, cpd := t })
        | (.ok (), t) =>
          (.ok (), { s with recent := some (Obs.dataset s.covDim us), yResponse := m, expProb := qOf s us, cpd := t, hasBeenFit := true }) := by
  unfold fit
  simp only [Py.bind_apply, Py.get_apply, Obs.dataset_nFeatures]
  rw [if_neg (by simp)]
  simp only [Py.bind_apply, Py.modify_apply, if_false,
    Py.lift_apply, Obs.dataset_exp, h, Bool.false_eq_true, Obs.vals_x, Obs.dataset_cStack, Obs.dataset_rsp, Obs.vals_y,
    covRows_dataset, zoom, List.length_map, List.map_map]
  generalize R.fitRows (us.map fun u => u.xv :: u.zv) (us.map Obs.yv) s.yResponse = r
  obtain ⟨_ | _, m⟩ := r
  · rfl
  · simp only [Function.comp_def]
    generalize s.cpd.fit (us.map fun u => u.x.key) (us.map fun u => rowKey u.z) = r
    obtain ⟨_ | _, t⟩ := r <;> rfl

/-- The invariant of a front-door parameter whose datasets have covariates satisfying `PZ` and exposures
satisfying `PX` (as keys). -/
structure Inv (PX : Cell α → Prop) (PZ : List (Cell α) → Prop) (s : FrontDoor M α) : Prop where
  keys : s.cpd.Keys PX PZ
  q : s.minOverlap ≤ 1 / 2 → s.minOverlap ≤ s.expProb ∧ s.expProb ≤ 1 - s.minOverlap

/-- The configuration. -/
def SameConfig (s s' : FrontDoor M α) : Prop :=
  s'.covDim = s.covDim ∧ s'.minOverlap = s.minOverlap ∧ s'.minUnits = s.minUnits ∧ s'.ratio = s.ratio

theorem inv_new [IsStrictOrderedRing α] (PX : Cell α → Prop) (PZ : List (Cell α) → Prop) (ridge0 : M) (dim : Nat) (n : Int) (mo ratio : α) :
    Inv PX PZ (new ridge0 dim n mo ratio) :=
  ⟨Tab.keys_new _ _ _, fun h => by
    have h' : mo ≤ 1 / 2 := h
    show mo ≤ 1 / 2 ∧ 1 / 2 ≤ 1 - mo
    constructor <;> linarith⟩

theorem inv_fit [IsStrictOrderedRing α] (PX : Cell α → Prop) (PZ : List (Cell α) → Prop) (R : Predictor M α) (c : Nat) (us : List (Obs α))
    (s : FrontDoor M α) (hi : Inv PX PZ s) (hus : c = s.covDim → ∀ u ∈ us, PX u.x.key ∧ PZ (rowKey u.z)) :
    Inv PX PZ (fit R (Obs.dataset c us) s).2 ∧ SameConfig s (fit R (Obs.dataset c us) s).2 := by
  by_cases hc : c = s.covDim
  · subst hc
    replace hus := hus rfl
    cases h : tooFew s.minUnits (Obs.dataset s.covDim us).nUnits (us.map Obs.x)
    · rw [fit_enough R us s h]
      generalize R.fitRows (us.map fun u => u.xv :: u.zv) (us.map Obs.yv) s.yResponse = r
      obtain ⟨_ | _, m⟩ := r
      · exact ⟨⟨hi.keys, hi.q⟩, rfl, rfl, rfl, rfl⟩
      · have hk : s.cpd.Keys PX PZ := hi.keys
        have hk' := hk.fit (us.map fun u => u.x.key) (us.map fun u => rowKey u.z)
          (fun x hx => by obtain ⟨u, hu, rfl⟩ := List.mem_map.mp hx; exact (hus u hu).1)
          (fun x hx => by obtain ⟨u, hu, rfl⟩ := List.mem_map.mp hx; exact (hus u hu).2)
        have hq : s.minOverlap ≤ 1 / 2 → s.minOverlap ≤ qOf s us ∧ qOf s us ≤ 1 - s.minOverlap := by
          intro h
          exact AIPW.clip_mem (by linarith)
        dsimp only
        generalize s.cpd.fit (us.map fun u => u.x.key) (us.map fun u => rowKey u.z) = r at hk'
        obtain ⟨_ | _, t⟩ := r
        · exact ⟨⟨hk', hq⟩, rfl, rfl, rfl, rfl⟩
        · exact ⟨⟨hk', hq⟩, rfl, rfl, rfl, rfl⟩
    · rw [fit_few R us s h]; exact ⟨⟨hi.keys, hi.q⟩, rfl, rfl, rfl, rfl⟩
  · rw [fit_wrong R _ s (by rw [Obs.dataset_nFeatures]; exact hc)]; exact ⟨hi, rfl, rfl, rfl, rfl⟩

/-- The parameter after a history of fits and resets. -/
abbrev after (R : Predictor M α) (ridge0 : M) (h : List (EtaEvent α)) (s : FrontDoor M α) : FrontDoor M α :=
  runEvents (fit R) (reset ridge0) h s

theorem inv_after [IsStrictOrderedRing α] (PX : Cell α → Prop) (PZ : List (Cell α) → Prop) (R : Predictor M α) (ridge0 : M)
    (h : List (EtaEvent α)) (s : FrontDoor M α) (hi : Inv PX PZ s)
    (hus : ∀ us, EtaEvent.fit s.covDim us ∈ h → ∀ u ∈ us, PX u.x.key ∧ PZ (rowKey u.z)) :
    Inv PX PZ (after R ridge0 h s) ∧ SameConfig s (after R ridge0 h s) := by
  induction h generalizing s with
  | nil => exact ⟨hi, rfl, rfl, rfl, rfl⟩
  | cons e h ih =>
    cases e with
    | fit c us =>
      obtain ⟨i1, i2⟩ := inv_fit PX PZ R c us s hi (fun hc => hus us (by rw [hc]; exact List.mem_cons_self))
      obtain ⟨j1, j2⟩ := ih _ i1 (fun us' hm => hus us' (by rw [i2.1] at hm; exact List.mem_cons_of_mem _ hm))
      exact ⟨j1, j2.1.trans i2.1, j2.2.1.trans i2.2.1, j2.2.2.1.trans i2.2.2.1, j2.2.2.2.trans i2.2.2.2⟩
    | reset =>
      have i1 : Inv PX PZ (reset ridge0 s) := by
        have := inv_new (M := M) PX PZ ridge0 s.covDim s.minUnits s.minOverlap s.ratio
        exact ⟨this.keys, this.q⟩
      obtain ⟨j1, j2⟩ := ih _ i1 (fun us' hm => hus us' (List.mem_cons_of_mem _ hm))
      exact ⟨j1, j2.1, j2.2.1, j2.2.2.1, j2.2.2.2⟩

end FrontDoor
end Verif
