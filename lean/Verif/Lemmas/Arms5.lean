import Verif.Lemmas.Arms4

/-!
# The folds and the data calls of a whole history
-/

set_option linter.unusedSectionVars false

namespace Verif
namespace Arm
open ExpData
variable {E β α W : Type} [Field α] [LinearOrder α]

theorem GoodHist.init {transform : ExpData β → Except PyErr (ExpData β)} {T : ExpData β → ExpData β}
    {hist : List (ExpData β × Fl α)} {p : ExpData β × Fl α} (h : GoodHist transform T (hist ++ [p])) :
    GoodHist transform T hist :=
  ⟨fun q hq => h.delta q (by simp [hq]), fun q hq => h.transform q (by simp [hq]), fun q hq => h.wf q (by simp [hq]),
    fun q hq r hr => h.kind q (by simp [hq]) r (by simp [hr])⟩

/-- Folds after a history, for any `update` that files the batch before doing anything else with the folds. -/
theorem run_folds {R' : Type} (transform : ExpData β → Except PyErr (ExpData β)) (rng : Rng W α)
    (upd : ExpData β → Fl α → Py (ArmState E β α × W) R') (T : ExpData β → ExpData β)
    (hupd : ∀ d δ s w fs w', ValidDelta δ →
      addData transform true rng d ({ s with numPulled := s.numPulled + 1, delta := some δ }, w) =
        (.ok (), { s with numPulled := s.numPulled + 1, delta := some δ, split := fs }, w') →
      (upd d δ (s, w)).2.1.split = fs ∧ (upd d δ (s, w)).2.1.numPulled = s.numPulled + 1)
    (hist : List (ExpData β × Fl α)) (hg : GoodHist transform T hist) (e : E) (w : W) :
    ∃ assign, IsAssignment T hist assign ∧ FoldsAre T hist assign (runUpdates upd hist (init e, w)).2.1.split ∧
      (runUpdates upd hist (init e, w)).2.1.numPulled = hist.length := by
  induction hist using List.reverseRecOn with
  | nil => exact ⟨[], ⟨rfl, by simp⟩, ⟨fun _ => rfl, fun h => absurd rfl h⟩, rfl⟩
  | append_singleton hist p ih =>
    obtain ⟨assign, h1, h2, h3⟩ := ih hg.init
    obtain ⟨d, δ⟩ := p
    rw [runUpdates_snoc]
    generalize hst : (runUpdates upd hist (init e, w)).2 = st at *
    obtain ⟨s, w1⟩ := st
    obtain ⟨a, fs, w', h4, h5, h6⟩ := foldsAre_step (E := E) transform rng T hist assign h1 (d, δ)
      (hg.transform _ (by simp)) (hg.wf _ (by simp)) (fun q hq => hg.kind q (by simp [hq]) _ (by simp))
      { s with numPulled := s.numPulled + 1, delta := some δ } w1 h2
    obtain ⟨h7, h8⟩ := hupd d δ s w1 fs w' (hg.delta _ (by simp : ((d, δ) ∈ hist ++ [(d, δ)]))) h4
    exact ⟨assign ++ [a], h5, by simp only [h7]; exact h6, by simp only [h8]; simpa using h3⟩

theorem CallAt.snoc {T : ExpData β → ExpData β} {hist : List (ExpData β × Fl α)} {assign : List (List Nat × List Nat)}
    (hl : assign.length = hist.length) {c : EtaCall β} (h : CallAt T hist assign c) (p : ExpData β × Fl α)
    (a : List Nat × List Nat) : CallAt T (hist ++ [p]) (assign ++ [a]) c := by
  cases c with
  | fit d =>
    obtain ⟨t, h0, h1, h2⟩ := h
    exact ⟨t, h0, by simp; omega, by rw [List.take_append_of_le_length h1, List.take_append_of_le_length (by omega)]; exact h2⟩
  | score d =>
    obtain ⟨t, h0, h1, h2⟩ := h
    exact ⟨t, h0, by simp; omega, by rw [List.take_append_of_le_length h1, List.take_append_of_le_length (by omega)]; exact h2⟩

theorem run_log (cfg : SSConfig β α) (hst : cfg.stable = true) (ops : EtaOps E β α) (lib : Libm α) (rng : Rng W α)
    (T : ExpData β → ExpData β) (hist : List (ExpData β × Fl α)) (hg : GoodHist cfg.transform T hist) (e : E) (w : W) :
    ∃ assign, IsAssignment T hist assign ∧
      FoldsAre T hist assign (runUpdates (ssUpdate cfg ops.logged lib rng) hist (init (e, []), w)).2.1.split ∧
      ∀ c ∈ (runUpdates (ssUpdate cfg ops.logged lib rng) hist (init (e, []), w)).2.1.eta.2, CallAt T hist assign c := by
  induction hist using List.reverseRecOn with
  | nil => exact ⟨[], ⟨rfl, by simp⟩, ⟨fun _ => rfl, fun h => absurd rfl h⟩, by simp [runUpdates, init]⟩
  | append_singleton hist p ih =>
    obtain ⟨assign, h1, h2, h3⟩ := ih hg.init
    obtain ⟨d, δ⟩ := p
    rw [runUpdates_snoc]
    generalize hs : (runUpdates (ssUpdate cfg ops.logged lib rng) hist (init (e, []), w)).2 = st at *
    obtain ⟨s, w1⟩ := st
    obtain ⟨a, fs, w', h4, h5, h6⟩ := foldsAre_step cfg.transform rng T hist assign h1 (d, δ)
      (hg.transform _ (by simp)) (hg.wf _ (by simp)) (fun q hq => hg.kind q (by simp [hq]) _ (by simp))
      { s with numPulled := s.numPulled + 1, delta := some δ } w1 h2
    have hδ := hg.delta _ (by simp : ((d, δ) ∈ hist ++ [(d, δ)]))
    rw [← hst] at h4
    obtain ⟨h7, h8, -⟩ := ssUpdate_after cfg ops.logged lib rng d δ hδ s w1 w' fs h4
    refine ⟨assign ++ [a], h5, by simp only [h8]; exact h6, ?_⟩
    have hlog := log_ssEstimate (W := W) fs cfg ops lib δ
      ({ s with numPulled := s.numPulled + 1, delta := some δ, split := fs }, w') rfl
    rw [← h7] at hlog
    obtain ⟨-, es, he, hc⟩ := hlog
    intro c hcm
    simp only at hcm
    rw [he] at hcm
    rcases List.mem_append.mp hcm with hcm | hcm
    · exact (h3 c hcm).snoc h1.1 _ _
    · obtain ⟨f0, f1, hfs, -, -, -, u0, u1⟩ := h6.2 (by simp)
      have htake : ∀ {X : Type} (l : List X) (x : X), (l ++ [x]).take (l.length + 1) = l ++ [x] := by
        intro X l x; exact List.take_of_length_le (by simp)
      have hlen := h1.1
      cases c with
      | fit x =>
        obtain ⟨l, hl, hx⟩ := hc _ hcm
        rw [hfs, Option.some.injEq] at hl
        subst hl
        simp only [List.getElem?_cons_zero, Option.some.injEq] at hx
        subst hx
        refine ⟨hist.length + 1, by omega, by simp, ?_⟩
        rw [htake, ← hlen, htake]; exact u0
      | score x =>
        obtain ⟨l, hl, hx⟩ := hc _ hcm
        rw [hfs, Option.some.injEq] at hl
        subst hl
        simp only [List.getElem?_cons_succ, List.getElem?_cons_zero, Option.some.injEq] at hx
        subst hx
        refine ⟨hist.length + 1, by omega, by simp, ?_⟩
        rw [htake, ← hlen, htake]; exact u1

theorem ssUpdate_files (cfg : SSConfig β α) (hst : cfg.stable = true) (ops : EtaOps E β α) (lib : Libm α) (rng : Rng W α)
    (d : ExpData β) (δ : Fl α) (s : ArmState E β α) (w : W) (fs : Option (List (ExpData β))) (w' : W) (hδ : ValidDelta δ)
    (h : addData cfg.transform true rng d ({ s with numPulled := s.numPulled + 1, delta := some δ }, w) =
        (.ok (), { s with numPulled := s.numPulled + 1, delta := some δ, split := fs }, w')) :
    (ssUpdate cfg ops lib rng d δ (s, w)).2.1.split = fs ∧ (ssUpdate cfg ops lib rng d δ (s, w)).2.1.numPulled = s.numPulled + 1 := by
  rw [← hst] at h
  exact (ssUpdate_after cfg ops lib rng d δ hδ s w w' fs h).2

theorem ssNumUnits_of_folds (T : ExpData β → ExpData β) (hist : List (ExpData β × Fl α)) (assign : List (List Nat × List Nat))
    (ha : IsAssignment T hist assign) (s : ArmState E β α) (h : FoldsAre T hist assign s.split) :
    ssNumUnits s = (hist.map fun p => (T p.1).nUnits).sum := by
  by_cases hh : hist = []
  · subst hh; simp [ssNumUnits, h.1 rfl]
  · obtain ⟨f0, f1, hs, -, -, -, u0, u1⟩ := h.2 hh
    rw [← assignedUnits_length T hist assign ha, ← u0, ← u1, units_length, units_length]
    simp [ssNumUnits, hs]

section Boot
variable [IsStrictOrderedRing α] [FloorRing α]

theorem keep_bootLoop (ops : EtaOps E β α) (rng : Rng W α) (B : Int) (k : Nat) :
    Py.Frame (KeepData (W := W)) (bootLoop ops rng B k) := by
  induction k with
  | zero => exact Py.Frame.pure KeepData.refl _
  | succ k ih =>
    unfold bootLoop
    refine Py.Frame.bind KeepData.trans (frame_fold _ KeepData.refl 0) fun f0 => Py.Frame.bind KeepData.trans (fun _ => ⟨rfl, rfl, rfl⟩) fun p =>
      Py.Frame.bind KeepData.trans (keep_etaFit _ _) fun _ => Py.Frame.bind KeepData.trans (keep_etaScore _ _) fun _ =>
      Py.Frame.bind KeepData.trans ih fun _ => Py.Frame.pure KeepData.refl _

theorem keep_bootEstimate (cfg : BootConfig β) (ops : EtaOps E β α) (rng : Rng W α) (δ : α) :
    Py.Frame (KeepData (W := W)) (bootEstimate cfg ops rng δ) := by
  unfold bootEstimate
  have B {A C : Type} {m : Py (ArmState E β α × W) A} {f : A → Py (ArmState E β α × W) C} :=
    @Py.Frame.bind _ A C _ (KeepData.trans (E := E) (β := β) (α := α) (W := W)) m f
  have R := KeepData.refl (E := E) (β := β) (α := α) (W := W)
  have M {f : ArmState E β α × W → ArmState E β α × W} := @Py.Frame.modify _ (KeepData (E := E) (β := β) (α := α) (W := W)) f
  exact B (frame_fold _ R 0) fun f0 => B (keep_etaFit _ _) fun _ => B (keep_bootLoop _ _ _ _) fun _ => B (Py.Frame.lift R _) fun _ =>
    B (Py.Frame.lift R _) fun _ => B (M fun _ => ⟨rfl, rfl, rfl⟩) fun _ => B (frame_fold _ R 1) fun _ => B (keep_etaScore _ _) fun _ =>
    B (M fun _ => ⟨rfl, rfl, rfl⟩) fun _ => B (keep_etaScore _ _) fun _ => B (M fun _ => ⟨rfl, rfl, rfl⟩) fun _ => Py.Frame.pure R _

theorem bootUpdate_valid (cfg : BootConfig β) (ops : EtaOps E β α) (rng : Rng W α) (d : ExpData β) (δ : α)
    (h0 : 0 < δ) (h1 : δ < 1) (s : ArmState E β α) (w : W) :
    bootUpdate cfg ops rng d (.fin δ) (s, w) =
      (addData cfg.transform cfg.stable rng d >>= fun _ => bootEstimate cfg ops rng δ)
        ({ s with numPulled := s.numPulled + 1, delta := some (.fin δ) }, w) := by
  unfold bootUpdate
  rw [(deltaOk_iff (.fin δ)).mpr ⟨δ, rfl, h0, h1⟩]
  rfl

theorem bootUpdate_invalid (cfg : BootConfig β) (ops : EtaOps E β α) (rng : Rng W α) (d : ExpData β)
    (delta : Fl α) (hδ : ¬ ValidDelta delta) (s : ArmState E β α × W) :
    bootUpdate cfg ops rng d delta s = (.error .valueError, s) := by
  unfold bootUpdate
  have : deltaOk delta = false := by
    rw [← Bool.not_eq_true]; exact fun h => hδ ((deltaOk_iff delta).mp h)
  rw [this]
  rfl

theorem bootUpdate_files (cfg : BootConfig β) (hst : cfg.stable = true) (ops : EtaOps E β α) (rng : Rng W α)
    (d : ExpData β) (δ : Fl α) (s : ArmState E β α) (w : W) (fs : Option (List (ExpData β))) (w' : W) (hδ : ValidDelta δ)
    (h : addData cfg.transform true rng d ({ s with numPulled := s.numPulled + 1, delta := some δ }, w) =
        (.ok (), { s with numPulled := s.numPulled + 1, delta := some δ, split := fs }, w')) :
    (bootUpdate cfg ops rng d δ (s, w)).2.1.split = fs ∧ (bootUpdate cfg ops rng d δ (s, w)).2.1.numPulled = s.numPulled + 1 := by
  obtain ⟨δ', rfl, h0, h1⟩ := hδ
  rw [← hst] at h
  rw [bootUpdate_valid cfg ops rng d δ' h0 h1, Py.bind_ok h]
  have := keep_bootEstimate cfg ops rng δ' ({ s with numPulled := s.numPulled + 1, delta := some (.fin δ'), split := fs }, w')
  exact ⟨this.1, this.2.1⟩

end Boot

end Arm
end Verif
