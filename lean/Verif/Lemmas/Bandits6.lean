import Verif.Lemmas.Bandits5

/-!
# Stable order, faithfulness of the log, termination
-/

set_option linter.unusedSectionVars false
set_option linter.unusedSimpArgs false

namespace Verif

namespace Py
variable {σ τ H R : Type} {Q : σ → τ → Prop}

theorem Sim.loop {body : H → Py σ (H ⊕ R)} {body' : H → Py τ (H ⊕ R)} (hb : ∀ h, Sim Q (body h) (body' h)) (n : Nat) (h : H) :
    Sim Q (Py.loop body n h) (Py.loop body' n h) := by
  induction n generalizing h with
  | zero => exact Sim.pure _
  | succ n ih =>
    unfold Py.loop
    refine Sim.bind (hb h) fun x => ?_
    cases x with
    | inl h' => exact ih h'
    | inr r => exact Sim.pure _

theorem Sim.forEach {I : Type} {f : I → H → Py σ H} {f' : I → H → Py τ H} (hf : ∀ a h, Sim Q (f a h) (f' a h)) (l : List I) (h : H) :
    Sim Q (Py.forEach f l h) (Py.forEach f' l h) := by
  induction l generalizing h with
  | nil => exact Sim.pure _
  | cons a l ih => exact Sim.bind (hf a h) fun h' => ih h'

/-- More fuel does not change an outcome. -/
theorem loop_more {body : H → Py σ (H ⊕ R)} (n k : Nat) (h : H) (s : σ) (hn : (Py.loop body n h s).1 ≠ .ok none) :
    Py.loop body (n + k) h s = Py.loop body n h s := by
  induction n generalizing h s with
  | zero => exact absurd rfl hn
  | succ n ih =>
    rw [show n + 1 + k = (n + k) + 1 by omega]
    unfold Py.loop at hn ⊢
    rw [bind_apply] at hn ⊢
    rw [bind_apply]
    rcases hb : body h s with ⟨x, s1⟩
    rw [hb] at hn
    cases x with
    | error e => rfl
    | ok x =>
      cases x with
      | inl h' => exact ih h' s1 hn
      | inr r => rfl

end Py

namespace Bandit
variable {I S W β α : Type} [Field α] [LinearOrder α] [DecidableEq I]

section Sim

/-- The logged heap without its logs. -/
def Unlog (s : (I → S × List (ExpData β × Fl α)) × W) (t : (I → S) × W) : Prop := (∀ a, (s.1 a).1 = t.1 a) ∧ s.2 = t.2

theorem Unlog.eq {s : (I → S × List (ExpData β × Fl α)) × W} {t : (I → S) × W} (h : Unlog s t) :
    t = ((fun a => (s.1 a).1), s.2) := by
  obtain ⟨th, tw⟩ := t
  obtain ⟨h1, h2⟩ := h
  simp only at h1 h2
  rw [h2]
  congr
  funext a
  exact (h1 a).symm

theorem sim_updateArm (ops : ArmOps S W β α) (a : I) (d : ExpData β) (δ : Fl α) :
    Py.Sim Unlog (updateArm ops.logged a d δ) (updateArm ops a d δ) := by
  intro s t h
  have := h.eq
  subst this
  refine ⟨rfl, ?_, rfl⟩
  intro b
  by_cases hb : b = a
  · subst hb; simp [updateArm, ArmOps.logged]
  · simp [updateArm, ArmOps.logged, Function.update_of_ne hb]

theorem sim_pure_heap {A : Type} {m : Py ((I → S × List (ExpData β × Fl α)) × W) A} {m' : Py ((I → S) × W) A}
    (f : ((I → S) × W) → Except PyErr A × W)
    (hm : ∀ s, m s = ((f ((fun a => (s.1 a).1), s.2)).1, s.1, (f ((fun a => (s.1 a).1), s.2)).2))
    (hm' : ∀ t, m' t = ((f t).1, t.1, (f t).2)) : Py.Sim Unlog m m' := by
  intro s t h
  have := h.eq
  subst this
  rw [hm, hm']
  exact ⟨rfl, fun _ => rfl, rfl⟩

theorem collectBounds_logged (ops : ArmOps S W β α) (arms : List I) (heap : I → S × List (ExpData β × Fl α)) :
    collectBounds ops.logged arms heap = collectBounds ops arms fun a => (heap a).1 := rfl

theorem sim_generate (env : BanditEnv W β) (n : Nat) : Py.Sim (Unlog (α := α)) (generate (I := I) (S := S × List (ExpData β × Fl α)) env n) (generate env n) :=
  sim_pure_heap (fun t => env.generate n t.2) (fun _ => rfl) (fun _ => rfl)

theorem sim_samplesFor (env : BanditEnv W β) (ops : ArmOps S W β α) (all : Option (ExpData β)) (u : Nat) (a : I) :
    Py.Sim Unlog (samplesFor env ops.logged all u a) (samplesFor env ops all u a) := by
  cases all with
  | none => exact sim_generate env u
  | some d =>
    exact sim_pure_heap (fun t => (d.slice (ops.numUnits (t.1 a)) (ops.numUnits (t.1 a) + u), t.2)) (fun _ => rfl) (fun _ => rfl)

theorem sim_pull (env : BanditEnv W β) (ops : ArmOps S W β α) (cfg : BanditCfg I α) (all : Option (ExpData β)) (a : I) (x : Unit) :
    Py.Sim Unlog (pull env ops.logged cfg all a x) (pull env ops cfg all a x) :=
  Py.Sim.bind (sim_samplesFor env ops all _ a) fun d => sim_updateArm ops a d _

theorem sim_record (ops : ArmOps S W β α) (k : I → Nat) (a : I) (h : Hist I α) :
    Py.Sim Unlog (record ops.logged k a h) (record ops k a h) :=
  sim_pure_heap (fun t => ((record ops k a h t).1, t.2)) (fun _ => rfl) (fun _ => rfl)

theorem sim_updateRecord (ops : ArmOps S W β α) (cfg : BanditCfg I α) (d : ExpData β) (a : I) (h : Hist I α) :
    Py.Sim Unlog (updateRecord ops.logged cfg d a h) (updateRecord ops cfg d a h) :=
  Py.Sim.bind (sim_updateArm ops a d _) fun _ => sim_record ops _ a h

theorem sim_chooseTwo (env : BanditEnv W β) (arms : List I) :
    Py.Sim (Unlog (α := α)) (chooseTwo (S := S × List (ExpData β × Fl α)) env arms) (chooseTwo env arms) := by
  intro s t h
  have := h.eq
  subst this
  unfold chooseTwo
  dsimp only
  split
  · exact ⟨rfl, fun _ => rfl, rfl⟩
  · exact ⟨rfl, fun _ => rfl, rfl⟩

theorem sim_chooseMasked (env : BanditEnv W β) (arms : List I) (mask : List Bool) :
    Py.Sim (Unlog (α := α)) (chooseMasked (S := S × List (ExpData β × Fl α)) env arms mask) (chooseMasked env arms mask) := by
  intro s t h
  have := h.eq
  subst this
  unfold chooseMasked
  dsimp only
  split
  · exact ⟨rfl, fun _ => rfl, rfl⟩
  · exact ⟨rfl, fun _ => rfl, rfl⟩

theorem sim_selectArms (env : BanditEnv W β) (ops : ArmOps S W β α) (cfg : BanditCfg I α) :
    Py.Sim Unlog (selectArms env ops.logged cfg) (selectArms env ops cfg) := by
  unfold selectArms
  refine Py.Sim.get_bind fun s t h => ?_
  have := h.eq
  subst this
  obtain ⟨heap, w⟩ := s
  dsimp only
  rw [collectBounds_logged]
  refine Py.Sim.bind (Py.Sim.lift _) fun b => ?_
  refine Py.Sim.bind (Py.Sim.lift _) fun v => ?_
  split
  · exact sim_chooseTwo env _
  · exact Py.Sim.bind (Py.Sim.lift _) fun _ => Py.Sim.bind (Py.Sim.lift _) fun _ =>
      Py.Sim.bind (sim_chooseMasked _ _ _) fun _ => Py.Sim.bind (sim_chooseMasked _ _ _) fun _ => Py.Sim.pure _

theorem sim_uniformRun (env : BanditEnv W β) (ops : ArmOps S W β α) (cfg : BanditCfg I α) (all : Option (ExpData β)) (fuel : Nat) :
    Py.Sim Unlog (uniformRun env ops.logged cfg all fuel) (uniformRun env ops cfg all fuel) := by
  unfold uniformRun
  refine Py.Sim.loop (fun h => ?_) fuel _
  unfold uniformRound
  refine Py.Sim.bind ?_ fun d => Py.Sim.bind (Py.Sim.forEach (sim_updateRecord ops cfg d) _ _) fun h' =>
    Py.Sim.bind (Py.Sim.lift _) fun over => Py.Sim.get_bind fun s t h => ?_
  · unfold uniformSamples
    cases all with
    | none => exact sim_generate env _
    | some x =>
      cases cfg.arms with
      | nil => exact Py.Sim.raise _
      | cons a l =>
        exact sim_pure_heap (fun t => (x.slice (ops.numUnits (t.1 a)) (ops.numUnits (t.1 a) + cfg.unitsPerRound), t.2)) (fun _ => rfl) (fun _ => rfl)
  · have := h.eq
    subst this
    dsimp only
    split
    · exact Py.Sim.bind (Py.Sim.lift _) fun _ => Py.Sim.pure _
    · refine Py.Sim.bind (Py.Sim.lift _) fun r => ?_
      split <;> exact Py.Sim.pure _

theorem sim_lucbRun (env : BanditEnv W β) (ops : ArmOps S W β α) (cfg : BanditCfg I α) (all : Option (ExpData β)) (fuel : Nat) :
    Py.Sim Unlog (lucbRun env ops.logged cfg all fuel) (lucbRun env ops cfg all fuel) := by
  unfold lucbRun
  refine Py.Sim.bind ?_ fun d => Py.Sim.bind (Py.Sim.forEach (sim_updateRecord ops cfg d) _ _) fun h0 => Py.Sim.loop (fun h => ?_) fuel _
  · unfold lucbFirst
    cases all with
    | none => exact sim_generate env _
    | some x => exact Py.Sim.lift _
  · unfold lucbRound
    refine Py.Sim.bind (Py.Sim.lift _) fun over => ?_
    split
    · refine Py.Sim.get_bind fun s t h => ?_
      have := h.eq
      subst this
      exact Py.Sim.bind (Py.Sim.lift _) fun _ => Py.Sim.pure _
    · refine Py.Sim.bind (sim_selectArms env ops cfg) fun chosen => Py.Sim.bind (Py.Sim.forEach (sim_pull env ops cfg all) _ _) fun _ =>
        Py.Sim.bind (Py.Sim.forEach (sim_record ops _) _ _) fun h' => Py.Sim.get_bind fun s t h => ?_
      have := h.eq
      subst this
      refine Py.Sim.bind (Py.Sim.lift _) fun r => ?_
      obtain ⟨e, b⟩ := r
      dsimp only
      split <;> exact Py.Sim.pure _

theorem sim_seRun (env : BanditEnv W β) (ops : ArmOps S W β α) (cfg : BanditCfg I α) (all : Option (ExpData β)) (fuel : Nat) :
    Py.Sim Unlog (seRun env ops.logged cfg all fuel) (seRun env ops cfg all fuel) := by
  unfold seRun
  refine Py.Sim.loop (fun st => ?_) fuel _
  unfold seRound
  split
  · exact Py.Sim.pure _
  · refine Py.Sim.bind (Py.Sim.lift _) fun over => ?_
    split
    · refine Py.Sim.get_bind fun s t h => ?_
      have := h.eq
      subst this
      exact Py.Sim.bind (Py.Sim.lift _) fun _ => Py.Sim.pure _
    · refine Py.Sim.bind (Py.Sim.forEach (sim_pull env ops cfg all) _ _) fun _ =>
        Py.Sim.bind (Py.Sim.forEach (sim_record ops _) _ _) fun h' => Py.Sim.bind (Py.Sim.lift _) fun r => ?_
      split <;> exact Py.Sim.pure _

end Sim

/-! ## Stable order -/

/-- The batches of the first `p` pulls in stable order. -/
def batches (all : ExpData β) (u p : Nat) : List (Except PyErr (ExpData β)) :=
  (List.range p).map fun k => all.slice (k * u) ((k + 1) * u)

theorem slice_clamp (all : ExpData β) (hd : all.WF) (u p : Nat) :
    all.slice (min (p * u) all.nUnits) (min (p * u) all.nUnits + u) = all.slice (p * u) ((p + 1) * u) := by
  rw [ExpData.slice_eq_pick all hd, ExpData.slice_eq_pick all hd, ExpData.sliceIdx_eq_range', ExpData.sliceIdx_eq_range']
  rw [Nat.succ_mul]
  by_cases h : p * u ≤ all.nUnits
  · simp only [min_eq_left h]
  · have h' : all.nUnits ≤ p * u := by omega
    congr 3 <;> omega

theorem slice_units (all : ExpData β) (hd : all.WF) (i j : Nat) {d : ExpData β} (h : all.slice i j = .ok d) :
    d.nUnits = min j all.nUnits - min i all.nUnits := by
  have hp := ExpData.pick_isSelection all hd (ExpData.sliceIdx all.nUnits i j) (fun i hi => ExpData.mem_sliceIdx_lt hi)
  rw [ExpData.slice_eq_pick all hd] at h
  cases h
  rw [hp.size, ExpData.sliceIdx_eq_range', List.length_range']

/-- Arm `a` has received exactly its first `p` batches. -/
structure At (ops : ArmOps S W β α) (all : ExpData β) (Inv : S → Prop) (u p : Nat)
    (s : I → S × List (ExpData β × Fl α)) (a : I) : Prop where
  log : (s a).2.map (fun e => Except.ok e.1) = batches all u p
  inv : Inv (s a).1
  units : ops.numUnits (s a).1 = min (p * u) all.nUnits

/-- Every arm has received a number of batches, in order. -/
def Fed (all : ExpData β) (u : Nat) (arms : List I) (s : I → S × List (ExpData β × Fl α)) : Prop :=
  ∀ a ∈ arms, ∃ p, (s a).2.map (fun e => Except.ok e.1) = batches all u p

variable {ops : ArmOps S W β α} {all : ExpData β} {Inv : S → Prop} {cfg : BanditCfg I α}

theorem At.fed_other {u p : Nat} {s s' : I → S × List (ExpData β × Fl α)} {a : I} (h : At ops all Inv u p s a) (he : s' a = s a) :
    At ops all Inv u p s' a := ⟨by rw [he]; exact h.log, by rw [he]; exact h.inv, by rw [he]; exact h.units⟩

/-- Feeding an arm its next batch. -/
theorem At.next (hd : all.WF) (hc : CountsUnits ops all Inv) {u p : Nat} {s : I → S × List (ExpData β × Fl α)} {w : W} {a : I}
    (h : At ops all Inv u p s a) {d : ExpData β} (hs : all.slice (p * u) ((p + 1) * u) = .ok d) (δ : Fl α) :
    ((updateArm ops.logged a d δ (s, w)).2.1 a).2.map (fun e => Except.ok e.1) = batches all u (p + 1) ∧
    ∀ s' , updateArm ops.logged a d δ (s, w) = (.ok (), s') → At ops all Inv u (p + 1) s'.1 a := by
  have hlog : ((updateArm ops.logged a d δ (s, w)).2.1 a).2.map (fun e => Except.ok e.1) = batches all u (p + 1) := by
    simp only [updateArm, ArmOps.logged, Function.update_self, List.map_append, List.map_cons, List.map_nil, h.log]
    rw [batches, batches, range_succ_map, hs]
  refine ⟨hlog, ?_⟩
  intro s' e
  obtain ⟨r, s1, h1, h2⟩ := updateArm_ok e
  rw [e] at hlog
  have key : Inv (s'.1 a).1 ∧ ops.numUnits (s'.1 a).1 = min ((p + 1) * u) all.nUnits := by
   rw [h2, Function.update_self]
   simp only [ArmOps.logged, Prod.mk.injEq] at h1
   obtain ⟨g1, rfl, g3⟩ := h1
   have := hc (s a).1 w _ _ d δ r _ _ h.inv hs (Prod.ext g1 rfl)
   refine ⟨this.1, ?_⟩
   simp only
   rw [this.2, h.units, slice_units all hd _ _ hs]
   have : p * u ≤ (p + 1) * u := Nat.mul_le_mul_right _ (by omega)
   omega
  exact ⟨hlog, key.1, key.2⟩

theorem updateArm_other (a b : I) (hb : b ≠ a) (d : ExpData β) (δ : Fl α) (s : (I → S × List (ExpData β × Fl α)) × W) :
    (updateArm ops.logged a d δ s).2.1 b = s.1 b := by
  simp [updateArm, Function.update_of_ne hb]

/-- A pass over arms that all stand at `p`, feeding each the same next batch. -/
theorem triple_pass (hd : all.WF) (hc : CountsUnits ops all Inv) (u p : Nat) {d : ExpData β}
    (hs : all.slice (p * u) ((p + 1) * u) = .ok d) (l : List I) (hnd : l.Nodup) (h : Hist I α) :
    Py.Triple (fun s : (I → S × List (ExpData β × Fl α)) × W =>
        (∀ a ∈ l, At ops all Inv u p s.1 a) ∧ ∀ a ∈ cfg.arms, a ∉ l → At ops all Inv u (p + 1) s.1 a)
      (Py.forEach (updateRecord ops.logged cfg d) l h)
      (fun _ s => ∀ a ∈ cfg.arms, At ops all Inv u (p + 1) s.1 a) (fun s => Fed all u cfg.arms s.1) := by
  induction l generalizing h with
  | nil => exact Py.Triple.pure fun s hs a ha => hs.2 a ha (by simp)
  | cons b l ih =>
    rw [List.nodup_cons] at hnd
    rw [Py.forEach_cons]
    refine Py.Triple.bind (Q := fun _ s => (∀ a ∈ l, At ops all Inv u p s.1 a) ∧ ∀ a ∈ cfg.arms, a ∉ l → At ops all Inv u (p + 1) s.1 a)
      ?_ fun h' => ih hnd.2 h'
    unfold updateRecord
    refine Py.Triple.bind (Q := fun _ s => (∀ a ∈ l, At ops all Inv u p s.1 a) ∧ ∀ a ∈ cfg.arms, a ∉ l → At ops all Inv u (p + 1) s.1 a) ?_ fun _ => ?_
    · intro s hP
      obtain ⟨hP1, hP2⟩ := hP
      obtain ⟨n1, n2⟩ := (hP1 b (by simp)).next hd hc (w := s.2) hs (level cfg)
      refine ⟨?_, ?_⟩
      · rintro ⟨⟩ s' e
        have key : ∀ a, a ≠ b → s'.1 a = s.1 a := fun a ha => by
          have := updateArm_other (ops := ops) b a ha d (level cfg) s
          rw [e] at this; exact this
        refine ⟨fun a ha => (hP1 a (by simp [ha])).fed_other (key a fun hab => hnd.1 (hab ▸ ha)), fun a ha hal => ?_⟩
        by_cases hab : a = b
        · subst hab; exact n2 s' e
        · exact (hP2 a ha (by simp [hab, hal])).fed_other (key a hab)
      · intro x s' e a ha
        by_cases hab : a = b
        · subst hab
          have e' : updateArm ops.logged a d (level cfg) (s.1, s.2) = (.error x, s') := e
          rw [e'] at n1
          exact ⟨p + 1, n1⟩
        · have := updateArm_other (ops := ops) b a hab d (level cfg) s
          rw [e] at this
          simp only at this
          rw [this]
          by_cases hal : a ∈ l
          · exact ⟨p, (hP1 a (by simp [hal])).log⟩
          · exact ⟨p + 1, (hP2 a ha (by simp [hab, hal])).log⟩
    · exact triple_heap (P := fun s => (∀ a ∈ l, At ops all Inv u p s a) ∧ ∀ a ∈ cfg.arms, a ∉ l → At ops all Inv u (p + 1) s a)
        (E := fun s => Fed all u cfg.arms s)
        (fun s hP a ha => by
          by_cases hal : a ∈ l
          · exact ⟨p, (hP.1 a hal).log⟩
          · exact ⟨p + 1, (hP.2 a ha hal).log⟩) fun _ => rfl

/-- Pulls in stable order feed the next batch. -/
theorem triple_pull_stable (env : BanditEnv W β) (hd : all.WF) (hc : CountsUnits ops all Inv) (a : I) (ha : a ∈ cfg.arms) :
    Py.Triple (fun s : (I → S × List (ExpData β × Fl α)) × W => ∀ a ∈ cfg.arms, ∃ p, At ops all Inv cfg.unitsPerRound p s.1 a)
      (pull env ops.logged cfg (some all) a ()) (fun _ s => ∀ a ∈ cfg.arms, ∃ p, At ops all Inv cfg.unitsPerRound p s.1 a)
      (fun s => Fed all cfg.unitsPerRound cfg.arms s.1) := by
  intro s hP
  have hE : Fed all cfg.unitsPerRound cfg.arms s.1 := fun b hb => (hP b hb).imp fun p h => h.log
  obtain ⟨p, hp⟩ := hP a ha
  unfold pull samplesFor
  have hs := slice_clamp all hd cfg.unitsPerRound p
  rcases hsl : all.slice (p * cfg.unitsPerRound) ((p + 1) * cfg.unitsPerRound) with e | d
  · have h1 : nextSlice ops.logged all cfg.unitsPerRound a s = (.error e, s) := by
      simp only [nextSlice, ArmOps.logged, hp.units, hs, hsl]
    simp only
    rw [Py.bind_error h1]
    refine ⟨by simp, ?_⟩
    intro x s' hx
    simp only [Prod.mk.injEq] at hx
    rw [← hx.2]; exact hE
  · have h1 : nextSlice ops.logged all cfg.unitsPerRound a s = (.ok d, s) := by
      simp only [nextSlice, ArmOps.logged, hp.units, hs, hsl]
    simp only
    rw [Py.bind_ok h1]
    obtain ⟨n1, n2⟩ := hp.next hd hc (w := s.2) hsl (level cfg)
    refine ⟨?_, ?_⟩
    · rintro ⟨⟩ s' e b hb
      by_cases hab : b = a
      · subst hab; exact ⟨p + 1, n2 s' e⟩
      · obtain ⟨q, hq⟩ := hP b hb
        refine ⟨q, hq.fed_other ?_⟩
        have := updateArm_other (ops := ops) a b hab d (level cfg) s
        rw [e] at this; exact this
    · intro x s' e b hb
      by_cases hab : b = a
      · subst hab
        have e' : updateArm ops.logged b d (level cfg) (s.1, s.2) = (.error x, s') := e
        rw [e'] at n1
        exact ⟨p + 1, n1⟩
      · have := updateArm_other (ops := ops) a b hab d (level cfg) s
        rw [e] at this
        simp only at this
        rw [this]; exact hE b hb

/-- The heap at the start: fresh arms, empty logs. -/
def startHeap (heap : I → S) : I → S × List (ExpData β × Fl α) := fun a => (heap a, [])

theorem start_at (heap : I → S) (hfresh : ∀ a ∈ cfg.arms, Inv (heap a) ∧ ops.numUnits (heap a) = 0) (u : Nat) (a : I) (ha : a ∈ cfg.arms) :
    At ops all Inv u 0 (startHeap heap) a := ⟨rfl, (hfresh a ha).1, by simp [startHeap, (hfresh a ha).2]⟩

/-- Stable order, all algorithms, all outcomes. -/
theorem stable_order (env : BanditEnv W β) (hd : all.WF) (hc : CountsUnits ops all Inv) (hnd : cfg.arms.Nodup) (heap : I → S)
    (hfresh : ∀ a ∈ cfg.arms, Inv (heap a) ∧ ops.numUnits (heap a) = 0) (fuel : Nat) (w : W) :
    Fed all cfg.unitsPerRound cfg.arms (uniformRun env ops.logged cfg (some all) fuel (startHeap heap, w)).2.1 ∧
    Fed all cfg.unitsPerRound cfg.arms (lucbRun env ops.logged cfg (some all) fuel (startHeap heap, w)).2.1 ∧
    Fed all cfg.unitsPerRound cfg.arms (seRun env ops.logged cfg (some all) fuel (startHeap heap, w)).2.1 := by
  have fin : ∀ {A : Type} {m : Py ((I → S × List (ExpData β × Fl α)) × W) A} {P : (I → S × List (ExpData β × Fl α)) × W → Prop},
      Py.Triple P m (fun _ s => Fed all cfg.unitsPerRound cfg.arms s.1) (fun s => Fed all cfg.unitsPerRound cfg.arms s.1) →
      P (startHeap heap, w) → Fed all cfg.unitsPerRound cfg.arms (m (startHeap heap, w)).2.1 := by
    intro A m P h hP
    rcases e : m (startHeap heap, w) with ⟨r, s'⟩
    cases r with
    | ok a => exact (h _ hP).1 a s' e
    | error x => exact (h _ hP).2 x s' e
  have hPE : ∀ s : I → S × List (ExpData β × Fl α), (∀ a ∈ cfg.arms, ∃ p, At ops all Inv cfg.unitsPerRound p s a) → Fed all cfg.unitsPerRound cfg.arms s :=
    fun s hP b hb => (hP b hb).imp fun p h => h.log
  have hstart : ∀ a ∈ cfg.arms, ∃ p, At ops all Inv cfg.unitsPerRound p (startHeap heap) a :=
    fun a ha => ⟨0, start_at heap hfresh _ a ha⟩
  refine ⟨?_, ?_, ?_⟩
  · refine fin (P := fun s => ∃ p, ∀ a ∈ cfg.arms, At ops all Inv cfg.unitsPerRound p s.1 a) ?_ ⟨0, start_at heap hfresh _⟩
    unfold uniformRun
    refine Py.Triple.loop (Inv := fun _ (s : (I → S × List (ExpData β × Fl α)) × W) => ∃ p, ∀ a ∈ cfg.arms, At ops all Inv cfg.unitsPerRound p s.1 a)
      (fun h => ?_) (fun _ s hs => ?_) fuel _
    · unfold uniformRound
      refine Py.Triple.bind (Q := fun d s => ∃ p, all.slice (p * cfg.unitsPerRound) ((p + 1) * cfg.unitsPerRound) = .ok d ∧
        ∀ a ∈ cfg.arms, At ops all Inv cfg.unitsPerRound p s.1 a) ?_ fun d => ?_
      · intro s hP
        obtain ⟨p, hp⟩ := hP
        unfold uniformSamples
        rcases ha : cfg.arms with _ | ⟨a, l⟩
        · refine ⟨by simp [ha, Py.raise_apply], ?_⟩
          intro x s' e b hb
          simp at hb
        · have hs := slice_clamp all hd cfg.unitsPerRound p
          have h1 : nextSlice ops.logged all cfg.unitsPerRound a s = (all.slice (p * cfg.unitsPerRound) ((p + 1) * cfg.unitsPerRound), s) := by
            simp only [nextSlice, ArmOps.logged, (hp a (by simp [ha])).units, hs]
          simp only [ha]
          rw [h1, ← ha]
          refine ⟨?_, ?_⟩
          · intro d s' e
            simp only [Prod.mk.injEq] at e
            obtain ⟨e1, rfl⟩ := e
            exact ⟨p, e1, hp⟩
          · intro x s' e b hb
            simp only [Prod.mk.injEq] at e
            rw [← e.2]; exact ⟨p, (hp b hb).log⟩
      · refine Py.Triple.bind (Q := fun _ s => ∃ p, ∀ a ∈ cfg.arms, At ops all Inv cfg.unitsPerRound p s.1 a) ?_ fun h' => ?_
        · intro s hP
          obtain ⟨p, hs, hp⟩ := hP
          obtain ⟨t1, t2⟩ := triple_pass hd hc cfg.unitsPerRound p hs cfg.arms hnd h s ⟨hp, fun a ha h => absurd ha h⟩
          exact ⟨fun a s' e => ⟨p + 1, t1 a s' e⟩, t2⟩
        · exact triple_uniformTail (P := fun s => ∃ p, ∀ a ∈ cfg.arms, At ops all Inv cfg.unitsPerRound p s a)
            (E := fun s => Fed all cfg.unitsPerRound cfg.arms s) (fun s hP a ha => hP.imp fun p h => (h a ha).log) ops.logged cfg
            (addSamples (cfg.arms.length * cfg.unitsPerRound) h')
    · obtain ⟨p, hp⟩ := hs
      exact fun a ha => ⟨p, (hp a ha).log⟩
  · refine fin (P := fun s => ∀ a ∈ cfg.arms, At ops all Inv cfg.unitsPerRound 0 s.1 a) ?_ (start_at heap hfresh _)
    unfold lucbRun
    refine Py.Triple.bind (Q := fun d s => all.slice (0 * cfg.unitsPerRound) ((0 + 1) * cfg.unitsPerRound) = .ok d ∧
        ∀ a ∈ cfg.arms, At ops all Inv cfg.unitsPerRound 0 s.1 a) ?_ fun d => ?_
    · unfold lucbFirst
      simp only
      refine Py.Triple.lift (fun d s hs e => ⟨by simpa using e, hs⟩) (fun s hs a ha => ⟨0, (hs a ha).log⟩)
    · refine Py.Triple.bind (Q := fun _ s => ∀ a ∈ cfg.arms, ∃ p, At ops all Inv cfg.unitsPerRound p s.1 a) ?_ fun h' => ?_
      · intro s hP
        obtain ⟨t1, t2⟩ := triple_pass hd hc cfg.unitsPerRound 0 hP.1 cfg.arms hnd Hist.empty s ⟨hP.2, fun a ha h => absurd ha h⟩
        exact ⟨fun a s' e b hb => ⟨1, t1 a s' e b hb⟩, t2⟩
      · exact triple_lucbLoop hPE env ops.logged cfg (some all) (fun a ha => triple_pull_stable env hd hc a ha) fuel _
  · exact fin (P := fun s => ∀ a ∈ cfg.arms, ∃ p, At ops all Inv cfg.unitsPerRound p s.1 a)
      (triple_seRun hPE env ops.logged cfg (some all) (fun a ha => triple_pull_stable env hd hc a ha) fuel) hstart

end Bandit
end Verif
