import Verif.Lemmas.Arms

/-!
# What an update does to the stored folds
-/

set_option linter.unusedSectionVars false

namespace Verif

namespace ExpData
variable {β : Type}

theorem IsSelection.units_eq {d f : ExpData β} {is : List Nat} (h : IsSelection d f is) :
    f.units = is.map d.unitAt := by
  unfold units
  apply List.ext_getElem
  · simp [h.size]
  · intro j h1 h2
    simp only [List.length_map, List.length_range] at h1 h2
    have := (h.unit j h2).2
    simp [this]

theorem units_length (d : ExpData β) : d.units.length = d.nUnits := by simp [units]

theorem SameKind.symm {d f : ExpData β} (h : SameKind d f) : SameKind f d :=
  ⟨h.nFeatures.symm, h.rank.symm, h.exp.symm, h.rsp.symm⟩

theorem SameKind.trans {d f g : ExpData β} (h : SameKind d f) (h' : SameKind f g) : SameKind d g :=
  ⟨h'.nFeatures.trans h.nFeatures, h'.rank.trans h.rank, h'.exp.trans h.exp, h'.rsp.trans h.rsp⟩

theorem SameKind.appendable {d e : ExpData β} (h : SameKind d e) : Appendable d e :=
  ⟨h.nFeatures, h.rank, fun x => h.exp.trans x, fun x => h.rsp.trans x⟩

theorem IsConcat.units_eq {d e r : ExpData β} (h : IsConcat d e r) (hk : SameKind d e) :
    r.units = d.units ++ e.units := by
  have hres : ∀ j, d.restrictUnit (e.unitAt j) = e.unitAt j := by
    intro j
    unfold restrictUnit unitAt
    have h1 := hk.exp
    have h2 := hk.rsp
    cases hde : d.exp <;> cases hee : e.exp <;> cases hdr : d.rsp <;> cases her : e.rsp <;> simp_all
  unfold units
  rw [h.size, List.range_add, List.map_append, List.map_map]
  congr 1
  · apply List.map_congr_left
    intro i hi
    exact h.left i (by simpa using hi)
  · apply List.map_congr_left
    intro j hj
    show r.unitAt (d.nUnits + j) = _
    rw [h.right j (by simpa using hj), hres]

theorem kFold_two (d : ExpData β) (hd : d.WF) (σ : Equiv.Perm (Fin d.nUnits)) :
    ∃ (f0 f1 : ExpData β) (I J : List Nat), d.kFold 2 σ = .ok [f0, f1] ∧ (I ++ J).Perm (List.range d.nUnits) ∧
      f0.WF ∧ f1.WF ∧ SameKind d f0 ∧ SameKind d f1 ∧ f0.units = I.map d.unitAt ∧ f1.units = J.map d.unitAt := by
  have h := kFold_eq d hd 2 (by omega) σ
  let I := (List.range d.nUnits).filter (fun u => labelAt d.nUnits 2 σ u == 0)
  let J := (List.range d.nUnits).filter (fun u => labelAt d.nUnits 2 σ u == 1)
  have hI := pick_isSelection d hd I (by intro i hi; simpa using List.mem_of_mem_filter hi)
  have hJ := pick_isSelection d hd J (by intro i hi; simpa using List.mem_of_mem_filter hi)
  refine ⟨d.pick I, d.pick J, I, J, ?_, ?_, hI.wf, hJ.wf, hI.kind, hJ.kind, hI.units_eq, hJ.units_eq⟩
  · rw [show ((2 : Int)) = ((2 : Nat) : Int) from rfl, h]
    rfl
  · have hp := flatten_filter_perm (fun u => labelAt d.nUnits 2 σ u) (List.range d.nUnits) 2
    have h2 : (List.range d.nUnits).filter (fun u => decide (labelAt d.nUnits 2 σ u < 2)) = List.range d.nUnits := by
      rw [List.filter_eq_self]; intro u _; simpa using labelAt_lt (by omega) σ u
    rw [h2] at hp
    simpa [List.range_succ, I, J] using hp

end ExpData

namespace Arm
open ExpData
variable {E β α W : Type} [Field α] [LinearOrder α]

/-- first data, or data replacing the old -/
theorem addData_set (transform : ExpData β → Except PyErr (ExpData β)) (stable : Bool) (rng : Rng W α) (d t : ExpData β)
    (ht : transform d = .ok t) (hwf : t.WF) (s : ArmState E β α) (w : W) (hs : s.split = none ∨ stable = false) :
    ∃ (f0 f1 : ExpData β) (I J : List Nat) (w' : W), addData transform stable rng d (s, w) = (.ok (), { s with split := some [f0, f1] }, w') ∧
      (I ++ J).Perm (List.range t.nUnits) ∧ f0.WF ∧ f1.WF ∧ SameKind t f0 ∧ SameKind t f1 ∧
      f0.units = I.map t.unitAt ∧ f1.units = J.map t.unitAt := by
  obtain ⟨f0, f1, I, J, h1, h2⟩ := kFold_two t hwf (rng.perm t.nUnits w).1
  refine ⟨f0, f1, I, J, (rng.perm t.nUnits w).2, ?_, h2⟩
  have hfold : transformAndFold (E := E) transform rng d (s, w) = (.ok [f0, f1], s, (rng.perm t.nUnits w).2) := by
    simp only [transformAndFold, ht, h1]
  unfold addData
  rw [Py.bind_ok hfold, Py.bind_ok (Py.get_apply _)]
  have : (s.split.isSome && stable) = false := by
    rcases hs with h | h <;> simp [h]
  simp only [this]
  rfl

/-- incremental data -/
theorem addData_append (transform : ExpData β → Except PyErr (ExpData β)) (rng : Rng W α) (d t : ExpData β)
    (ht : transform d = .ok t) (hwf : t.WF) (s : ArmState E β α) (w : W) (a b : ExpData β)
    (hs : s.split = some [a, b]) (ha : a.WF) (hb : b.WF) (hka : SameKind t a) (hkb : SameKind t b) :
    ∃ (a' b' : ExpData β) (I J : List Nat) (w' : W), addData transform true rng d (s, w) = (.ok (), { s with split := some [a', b'] }, w') ∧
      (I ++ J).Perm (List.range t.nUnits) ∧ a'.WF ∧ b'.WF ∧ SameKind t a' ∧ SameKind t b' ∧
      a'.units = a.units ++ I.map t.unitAt ∧ b'.units = b.units ++ J.map t.unitAt := by
  obtain ⟨f0, f1, I, J, h1, h2, w0, w1, k0, k1, u0, u1⟩ := kFold_two t hwf (rng.perm t.nUnits w).1
  have ka := (hka.symm.trans k0)
  have kb := (hkb.symm.trans k1)
  obtain ⟨ra, ea, ca⟩ := append_isConcat a f0 ha w0 ka.appendable
  obtain ⟨rb, eb, cb⟩ := append_isConcat b f1 hb w1 kb.appendable
  refine ⟨ra, rb, I, J, (rng.perm t.nUnits w).2, ?_, h2, ca.wf, cb.wf, hka.trans ca.kind, hkb.trans cb.kind,
    by rw [ca.units_eq ka, u0], by rw [cb.units_eq kb, u1]⟩
  have hfold : transformAndFold (E := E) transform rng d (s, w) = (.ok [f0, f1], s, (rng.perm t.nUnits w).2) := by
    simp only [transformAndFold, ht, h1]
  unfold addData
  rw [Py.bind_ok hfold, Py.bind_ok (Py.get_apply _)]
  simp only [hs, Option.isSome_some, Bool.true_and, if_true]
  simp only [appendFolds, hs, ea, eb]

/-- an update with a valid `delta`: outcome and state -/
theorem ssUpdate_valid (cfg : SSConfig β α) (ops : EtaOps E β α) (lib : Libm α) (rng : Rng W α) (d : ExpData β)
    (delta : Fl α) (hδ : ValidDelta delta) (s : ArmState E β α) (w : W) :
    ssUpdate cfg ops lib rng d delta (s, w) =
      (addData cfg.transform cfg.stable rng d >>= fun _ => ssEstimate cfg ops lib delta)
        ({ s with numPulled := s.numPulled + 1, delta := some delta }, w) := by
  unfold ssUpdate
  rw [(deltaOk_iff delta).mpr hδ]
  rfl

theorem ssUpdate_invalid (cfg : SSConfig β α) (ops : EtaOps E β α) (lib : Libm α) (rng : Rng W α) (d : ExpData β)
    (delta : Fl α) (hδ : ¬ ValidDelta delta) (s : ArmState E β α × W) :
    ssUpdate cfg ops lib rng d delta s = (.error .valueError, s) := by
  unfold ssUpdate
  have : deltaOk delta = false := by
    rw [← Bool.not_eq_true]; exact fun h => hδ ((deltaOk_iff delta).mp h)
  rw [this]
  rfl

/-- the folds after an update are those after `addData` -/
theorem ssUpdate_after (cfg : SSConfig β α) (ops : EtaOps E β α) (lib : Libm α) (rng : Rng W α) (d : ExpData β)
    (delta : Fl α) (hδ : ValidDelta delta) (s : ArmState E β α) (w w' : W) (fs : Option (List (ExpData β)))
    (h : addData cfg.transform cfg.stable rng d ({ s with numPulled := s.numPulled + 1, delta := some delta }, w) =
      (.ok (), { s with numPulled := s.numPulled + 1, delta := some delta, split := fs }, w')) :
    ssUpdate cfg ops lib rng d delta (s, w) = ssEstimate cfg ops lib delta
        ({ s with numPulled := s.numPulled + 1, delta := some delta, split := fs }, w') ∧
    (ssUpdate cfg ops lib rng d delta (s, w)).2.1.split = fs ∧
    (ssUpdate cfg ops lib rng d delta (s, w)).2.1.numPulled = s.numPulled + 1 := by
  have e : ssUpdate cfg ops lib rng d delta (s, w) = ssEstimate cfg ops lib delta
        ({ s with numPulled := s.numPulled + 1, delta := some delta, split := fs }, w') := by
    rw [ssUpdate_valid cfg ops lib rng d delta hδ, Py.bind_ok h]
  refine ⟨e, ?_, ?_⟩
  · rw [e, (keep_ssEstimate cfg ops lib delta _).1]
  · rw [e, (keep_ssEstimate cfg ops lib delta _).2.1]

/-! ### simulations -/

/-- same data, counter and nuisance parameter -/
def SameCore (a b : ArmState E β α × W) : Prop :=
  a.1.eta = b.1.eta ∧ a.1.numPulled = b.1.numPulled ∧ a.1.split = b.1.split ∧ a.2 = b.2

/-- same arm, apart from the log of its nuisance parameter -/
def Erased (a : ArmState (E × List (EtaCall β)) β α × W) (b : ArmState E β α × W) : Prop :=
  a.1.ci = b.1.ci ∧ a.1.eta.1 = b.1.eta ∧ a.1.ate = b.1.ate ∧ a.1.varEst = b.1.varEst ∧
  a.1.numPulled = b.1.numPulled ∧ a.1.split = b.1.split ∧ a.1.delta = b.1.delta ∧ a.2 = b.2

section Sims
variable {E' : Type} {R : ArmState E β α × W → ArmState E' β α × W → Prop}

/-- What a relation must satisfy for the arm programs to respect it. -/
structure Respects (ops : EtaOps E β α) (ops' : EtaOps E' β α)
    (R : ArmState E β α × W → ArmState E' β α × W → Prop) : Prop where
  split : ∀ s t, R s t → s.1.split = t.1.split
  num : ∀ s t, R s t → s.1.numPulled = t.1.numPulled
  world : ∀ s t, R s t → s.2 = t.2
  enough : ∀ s t, R s t → ops.hasEnough s.1.eta = ops'.hasEnough t.1.eta
  width : ∀ s t, R s t → ops.csWidth s.1.eta = ops'.csWidth t.1.eta
  fit : ∀ d, Py.Sim R (etaFit ops d) (etaFit ops' d)
  score : ∀ d, Py.Sim R (etaScore ops d) (etaScore ops' d)
  setSplit : ∀ s t fs w, R s t → R ({ s.1 with split := fs }, w) ({ t.1 with split := fs }, w)
  setCi : ∀ s t c, R s t → R ({ s.1 with ci := c }, s.2) ({ t.1 with ci := c }, t.2)
  setAte : ∀ s t c, R s t → R ({ s.1 with ate := c }, s.2) ({ t.1 with ate := c }, t.2)
  setVar : ∀ s t c, R s t → R ({ s.1 with varEst := c }, s.2) ({ t.1 with varEst := c }, t.2)
  setNum : ∀ s t n c, R s t → R ({ s.1 with numPulled := n, delta := c }, s.2) ({ t.1 with numPulled := n, delta := c }, t.2)

variable {ops : EtaOps E β α} {ops' : EtaOps E' β α}

theorem Respects.setWorld (h : Respects ops ops' R) (s : ArmState E β α × W) (t : ArmState E' β α × W) (w : W)
    (hst : R s t) : R (s.1, w) (t.1, w) := by
  have := h.setSplit s t s.1.split w hst
  rw [show ({ t.1 with split := s.1.split } : ArmState E' β α) = t.1 by rw [h.split s t hst]] at this
  exact this

theorem Respects.sim_fold (h : Respects ops ops' R) (i : Nat) : Py.Sim R (fold i) (fold i) := by
  intro s t hst
  unfold fold
  simp only [h.split s t hst]
  rcases t.1.split with _ | l
  · exact ⟨rfl, hst⟩
  · simp only
    rcases l[i]? with _ | d <;> exact ⟨rfl, hst⟩

theorem Respects.sim_setCi (h : Respects ops ops' R) (lo hi : Fl α) : Py.Sim R (Arm.setCi lo hi) (Arm.setCi lo hi) :=
  Py.Sim.bind (Py.Sim.modify fun s t hst => h.setCi s t _ hst) fun _ => Py.Sim.pure _

theorem Respects.sim_countPull (h : Respects ops ops' R) (delta : Fl α) : Py.Sim R (countPull delta) (countPull delta) :=
  Py.Sim.modify fun s t hst => by
    have := h.setNum s t (s.1.numPulled + 1) (some delta) hst
    rw [show ({ t.1 with numPulled := s.1.numPulled + 1, delta := some delta } : ArmState E' β α) =
      { t.1 with numPulled := t.1.numPulled + 1, delta := some delta } by rw [h.num s t hst]] at this
    exact this

theorem Respects.sim_addData (h : Respects ops ops' R) (transform : ExpData β → Except PyErr (ExpData β)) (stable : Bool)
    (rng : Rng W α) (d : ExpData β) : Py.Sim R (addData transform stable rng d) (addData transform stable rng d) := by
  unfold addData
  refine Py.Sim.bind ?_ fun new => Py.Sim.get_bind fun s t hst => ?_
  · intro s t hst
    unfold transformAndFold
    rcases transform d with e | t'
    · exact ⟨rfl, hst⟩
    · simp only [h.world s t hst, true_and]
      exact h.setWorld s t _ hst
  · simp only [h.split s t hst]
    split
    · intro s t hst
      unfold appendFolds
      simp only [h.split s t hst, h.world s t hst]
      split
      · split
        · exact ⟨rfl, h.setSplit s t _ _ hst⟩
        · exact ⟨rfl, h.setSplit s t _ _ hst⟩
      · refine ⟨rfl, ?_⟩
        exact h.setWorld s t _ hst
    · exact Py.Sim.modify fun s t hst => by
        have := h.setSplit s t (some new) s.2 hst
        rw [h.world s t hst] at this ⊢
        exact this

theorem Respects.sim_ssEstimate (h : Respects ops ops' R) (cfg : SSConfig β α) (lib : Libm α) (delta : Fl α) :
    Py.Sim R (ssEstimate cfg ops lib delta) (ssEstimate cfg ops' lib delta) := by
  unfold ssEstimate
  refine Py.Sim.bind (h.sim_fold 0) fun f0 => Py.Sim.bind (h.fit f0) fun _ => Py.Sim.get_bind fun s t hst => ?_
  simp only [h.enough s t hst]
  refine Py.Sim.bind (Py.Sim.lift _) fun enough => ?_
  split
  · refine Py.Sim.bind (Py.Sim.modify fun s t hst => ?_) fun _ => h.sim_setCi _ _
    exact h.setVar _ _ (some .pinf) (h.setAte s t (some .nan) hst)
  · refine Py.Sim.bind (h.sim_fold 1) fun f1 => Py.Sim.bind (h.score f1) fun sc => Py.Sim.bind (Py.Sim.modify fun s t hst => h.setAte s t _ hst) fun _ =>
      Py.Sim.bind (h.score f1) fun sc2 => Py.Sim.bind (Py.Sim.modify fun s t hst => h.setVar s t _ hst) fun _ => ?_
    split
    · exact Py.Sim.raise _
    · split
      · exact h.sim_setCi _ _
      · refine Py.Sim.bind (h.score f1) fun sc3 => Py.Sim.get_bind fun s t hst => ?_
        simp only [h.num s t hst]
        exact h.sim_setCi _ _
      · split
        · exact Py.Sim.raise _
        · refine Py.Sim.get_bind fun s t hst => ?_
          simp only [h.width s t hst]
          refine Py.Sim.bind (Py.Sim.lift _) fun _ => ?_
          split
          · exact h.sim_setCi _ _
          · split
            · exact Py.Sim.raise _
            · exact h.sim_setCi _ _
      · exact Py.Sim.raise _

theorem Respects.sim_ssUpdate (h : Respects ops ops' R) (cfg : SSConfig β α) (lib : Libm α) (rng : Rng W α)
    (d : ExpData β) (delta : Fl α) : Py.Sim R (ssUpdate cfg ops lib rng d delta) (ssUpdate cfg ops' lib rng d delta) := by
  unfold ssUpdate
  split
  · exact Py.Sim.raise _
  · exact Py.Sim.bind (h.sim_countPull delta) fun _ => Py.Sim.bind (h.sim_addData _ _ _ _) fun _ => h.sim_ssEstimate cfg lib delta

theorem Respects.sim_bootLoop (h : Respects ops ops' R) (rng : Rng W α) (B : Int) (k : Nat) :
    Py.Sim R (bootLoop ops rng B k) (bootLoop ops' rng B k) := by
  induction k with
  | zero => exact Py.Sim.pure _
  | succ k ih =>
    unfold bootLoop
    refine Py.Sim.bind (h.sim_fold 0) fun f0 => Py.Sim.bind ?_ fun p => Py.Sim.bind (h.fit p.1) fun _ =>
      Py.Sim.bind (h.score p.2) fun sc => Py.Sim.bind ih fun _ => Py.Sim.pure _
    intro s t hst
    unfold drawSubsample
    simp only [h.world s t hst, true_and]
    exact h.setWorld s t _ hst

theorem Respects.sim_bootUpdate [IsStrictOrderedRing α] [FloorRing α] (h : Respects ops ops' R) (cfg : BootConfig β) (rng : Rng W α)
    (d : ExpData β) (delta : Fl α) : Py.Sim R (bootUpdate cfg ops rng d delta) (bootUpdate cfg ops' rng d delta) := by
  unfold bootUpdate
  split
  · exact Py.Sim.raise _
  · split
    · refine Py.Sim.bind (h.sim_countPull _) fun _ => Py.Sim.bind (h.sim_addData _ _ _ _) fun _ => ?_
      unfold bootEstimate
      refine Py.Sim.bind (h.sim_fold 0) fun f0 => Py.Sim.bind (h.fit f0) fun _ => Py.Sim.bind (h.sim_bootLoop _ _ _) fun samples =>
        Py.Sim.bind (Py.Sim.lift _) fun lo => Py.Sim.bind (Py.Sim.lift _) fun hi => Py.Sim.bind (Py.Sim.modify fun s t hst => h.setCi s t _ hst) fun _ =>
        Py.Sim.bind (h.sim_fold 1) fun f1 => Py.Sim.bind (h.score f1) fun _ => Py.Sim.bind (Py.Sim.modify fun s t hst => h.setAte s t _ hst) fun _ =>
        Py.Sim.bind (h.score f1) fun _ => Py.Sim.bind (Py.Sim.modify fun s t hst => h.setVar s t _ hst) fun _ => Py.Sim.pure _
    · exact Py.Sim.raise _

theorem respects_sameCore (ops : EtaOps E β α) : Respects ops ops (SameCore (E := E) (β := β) (α := α) (W := W)) where
  split := fun _ _ h => h.2.2.1
  num := fun _ _ h => h.2.1
  world := fun _ _ h => h.2.2.2
  enough := fun _ _ h => by rw [h.1]
  width := fun _ _ h => by rw [h.1]
  fit := fun d s t h => by
    unfold etaFit; simp only [h.1, true_and]; exact ⟨rfl, h.2.1, h.2.2.1, h.2.2.2⟩
  score := fun d s t h => by
    unfold etaScore; simp only [h.1, true_and]; exact ⟨rfl, h.2.1, h.2.2.1, h.2.2.2⟩
  setSplit := fun _ _ _ _ h => ⟨h.1, h.2.1, rfl, rfl⟩
  setCi := fun _ _ _ h => ⟨h.1, h.2.1, h.2.2.1, h.2.2.2⟩
  setAte := fun _ _ _ h => ⟨h.1, h.2.1, h.2.2.1, h.2.2.2⟩
  setVar := fun _ _ _ h => ⟨h.1, h.2.1, h.2.2.1, h.2.2.2⟩
  setNum := fun _ _ _ _ h => ⟨h.1, rfl, h.2.2.1, h.2.2.2⟩

theorem respects_erased (ops : EtaOps E β α) : Respects ops.logged ops (Erased (E := E) (β := β) (α := α) (W := W)) where
  split := fun _ _ h => h.2.2.2.2.2.1
  num := fun _ _ h => h.2.2.2.2.1
  world := fun _ _ h => h.2.2.2.2.2.2.2
  enough := fun s t h => by show ops.hasEnough s.1.eta.1 = _; rw [h.2.1]
  width := fun s t h => by show ops.csWidth s.1.eta.1 = _; rw [h.2.1]
  fit := fun d s t h => by
    obtain ⟨h1, h2, h3, h4, h5, h6, h7, h8⟩ := h
    unfold etaFit
    simp only [EtaOps.logged, h2, true_and]
    exact ⟨h1, rfl, h3, h4, h5, h6, h7, h8⟩
  score := fun d s t h => by
    obtain ⟨h1, h2, h3, h4, h5, h6, h7, h8⟩ := h
    unfold etaScore
    simp only [EtaOps.logged, h2, true_and]
    exact ⟨h1, rfl, h3, h4, h5, h6, h7, h8⟩
  setSplit := fun _ _ _ _ ⟨h1, h2, h3, h4, h5, _, h7, _⟩ => ⟨h1, h2, h3, h4, h5, rfl, h7, rfl⟩
  setCi := fun _ _ _ ⟨_, h2, h3, h4, h5, h6, h7, h8⟩ => ⟨rfl, h2, h3, h4, h5, h6, h7, h8⟩
  setAte := fun _ _ _ ⟨h1, h2, _, h4, h5, h6, h7, h8⟩ => ⟨h1, h2, rfl, h4, h5, h6, h7, h8⟩
  setVar := fun _ _ _ ⟨h1, h2, h3, _, h5, h6, h7, h8⟩ => ⟨h1, h2, h3, rfl, h5, h6, h7, h8⟩
  setNum := fun _ _ _ _ ⟨h1, h2, h3, h4, _, h6, _, h8⟩ => ⟨h1, h2, h3, h4, rfl, h6, rfl, h8⟩

end Sims

theorem runUpdates_sim {σ τ D R' : Type} {R : σ → τ → Prop} {upd : D → Fl α → Py σ R'} {upd' : D → Fl α → Py τ R'}
    (h : ∀ d δ, Py.Sim R (upd d δ) (upd' d δ)) (hist : List (D × Fl α)) (s : σ) (t : τ) (hst : R s t) :
    (runUpdates upd hist s).1 = (runUpdates upd' hist t).1 ∧ R (runUpdates upd hist s).2 (runUpdates upd' hist t).2 := by
  induction hist generalizing s t with
  | nil => exact ⟨rfl, hst⟩
  | cons p hist ih =>
    obtain ⟨d, δ⟩ := p
    obtain ⟨h1, h2⟩ := h d δ s t hst
    obtain ⟨h3, h4⟩ := ih _ _ h2
    simp only [runUpdates]
    exact ⟨by rw [h1, h3], h4⟩

theorem runUpdates_snoc {σ D R' : Type} (upd : D → Fl α → Py σ R') (hist : List (D × Fl α)) (d : D) (δ : Fl α) (s : σ) :
    runUpdates upd (hist ++ [(d, δ)]) s =
      ((runUpdates upd hist s).1 ++ [(upd d δ (runUpdates upd hist s).2).1], (upd d δ (runUpdates upd hist s).2).2) := by
  induction hist generalizing s with
  | nil => rfl
  | cons p hist ih =>
    obtain ⟨d', δ'⟩ := p
    simp only [List.cons_append, runUpdates, ih]

end Arm
end Verif
