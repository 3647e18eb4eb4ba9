import Verif.Lemmas.Rerun
import Verif.Spec.Rerun

/-!
# Arms after `reset`
-/

set_option linter.unusedSectionVars false
set_option linter.unusedSimpArgs false

namespace Verif

namespace Arm
variable {E β α W : Type} [Field α] [LinearOrder α]

/-- the nuisance parameter would be the same after a reset -/
def KeepEta (ops : EtaOps E β α) (a b : ArmState E β α × W) : Prop := ops.reset b.1.eta = ops.reset a.1.eta

theorem KeepEta.refl (ops : EtaOps E β α) (a : ArmState E β α × W) : KeepEta ops a a := rfl
theorem KeepEta.trans (ops : EtaOps E β α) (a b c : ArmState E β α × W) (h : KeepEta ops a b) (h' : KeepEta ops b c) : KeepEta ops a c :=
  Eq.trans h' h

theorem keepEta_ssEstimate (cfg : SSConfig β α) (ops : EtaOps E β α) (hr : ops.ResetLaws) (lib : Libm α) (delta : Fl α) :
    Py.Frame (KeepEta (W := W) ops) (ssEstimate cfg ops lib delta) := by
  unfold ssEstimate
  have B {A C : Type} {m : Py (ArmState E β α × W) A} {f : A → Py (ArmState E β α × W) C} :=
    @Py.Frame.bind _ A C _ (KeepEta.trans (W := W) ops) m f
  have R := KeepEta.refl (W := W) ops
  have M {f : ArmState E β α × W → ArmState E β α × W} := @Py.Frame.modify _ (KeepEta ops) f
  have hfit : ∀ d, Py.Frame (KeepEta (W := W) ops) (etaFit ops d) := fun d s => hr.fit s.1.eta d
  have hscore : ∀ d, Py.Frame (KeepEta (W := W) ops) (etaScore ops d) := fun d s => hr.score s.1.eta d
  have hci : ∀ lo hi, Py.Frame (KeepEta (W := W) ops) (setCi lo hi) := fun lo hi => B (M fun _ => rfl) fun _ => Py.Frame.pure R _
  refine B (frame_fold _ R 0) fun f0 => B (hfit _) fun _ => B (Py.Frame.get R) fun sw => B (Py.Frame.lift R _) fun enough => ?_
  split
  · exact B (M fun _ => rfl) fun _ => hci _ _
  · refine B (frame_fold _ R 1) fun f1 => B (hscore _) fun _ => B (M fun _ => rfl) fun _ =>
      B (hscore _) fun _ => B (M fun _ => rfl) fun _ => ?_
    split
    · exact Py.Frame.raise R _
    · split
      · exact hci _ _
      · exact B (hscore _) fun _ => B (Py.Frame.get R) fun _ => hci _ _
      · split
        · exact Py.Frame.raise R _
        · refine B (Py.Frame.get R) fun _ => B (Py.Frame.lift R _) fun _ => ?_
          split
          · exact hci _ _
          · split
            · exact Py.Frame.raise R _
            · exact hci _ _
      · exact Py.Frame.raise R _

theorem keepEta_addData (ops : EtaOps E β α) (transform : ExpData β → Except PyErr (ExpData β)) (stable : Bool) (rng : Rng W α) (d : ExpData β) :
    Py.Frame (KeepEta (W := W) ops) (addData transform stable rng d) := by
  unfold addData
  have R := KeepEta.refl (W := W) ops
  refine Py.Frame.bind (KeepEta.trans ops) ?_ fun new => Py.Frame.bind (KeepEta.trans ops) (Py.Frame.get R) fun s => ?_
  · intro s
    unfold transformAndFold
    dsimp only
    split <;> rfl
  · obtain ⟨s, w⟩ := s
    dsimp only
    split
    · intro s
      unfold appendFolds
      dsimp only
      split
      · split <;> rfl
      · rfl
    · exact Py.Frame.modify fun _ => rfl

theorem keepEta_ssUpdate (cfg : SSConfig β α) (ops : EtaOps E β α) (hr : ops.ResetLaws) (lib : Libm α) (rng : Rng W α) (d : ExpData β) (delta : Fl α) :
    Py.Frame (KeepEta (W := W) ops) (ssUpdate cfg ops lib rng d delta) := by
  unfold ssUpdate
  have R := KeepEta.refl (W := W) ops
  split
  · exact Py.Frame.raise R _
  · exact Py.Frame.bind (KeepEta.trans ops) (Py.Frame.modify fun _ => rfl) fun _ =>
      Py.Frame.bind (KeepEta.trans ops) (keepEta_addData ops _ _ _ _) fun _ => keepEta_ssEstimate cfg ops hr lib delta

/-- after a successful update the estimates only depend on the data, the counter and the nuisance parameter -/
theorem ssUpdate_full {cfg : SSConfig β α} {ops : EtaOps E β α} {lib : Libm α} {rng : Rng W α} {d : ExpData β} {delta : Fl α}
    {s t : ArmState E β α} {w : W} (he : s.eta = t.eta) (hn : s.numPulled = t.numPulled) (hs : s.split = t.split) {r}
    (h : (ssUpdate cfg ops lib rng d delta (s, w)).1 = .ok r) :
    (ssUpdate cfg ops lib rng d delta (s, w)).2.1.ci = (ssUpdate cfg ops lib rng d delta (t, w)).2.1.ci ∧
    (ssUpdate cfg ops lib rng d delta (s, w)).2.1.varEst = (ssUpdate cfg ops lib rng d delta (t, w)).2.1.varEst := by
  have hsim := (respects_sameCore (W := W) ops).sim_ssUpdate cfg lib rng d delta (s, w) (t, w) ⟨he, hn, hs, rfl⟩
  rcases hx : ssUpdate cfg ops lib rng d delta (s, w) with ⟨r1, s', w'⟩
  rcases hy : ssUpdate cfg ops lib rng d delta (t, w) with ⟨r2, t', w''⟩
  rw [hx] at h
  rw [hx, hy] at hsim
  obtain ⟨h1, -⟩ := hsim
  simp only at h h1
  subst h
  subst h1
  obtain ⟨lo, hi⟩ := r
  obtain ⟨hδ, s1, -, ha, hest⟩ := ssUpdate_inv hx
  obtain ⟨-, t1, -, hb, hest'⟩ := ssUpdate_inv hy
  have hsim2 := (respects_sameCore (W := W) ops).sim_addData cfg.transform cfg.stable rng d
    ({ s with numPulled := s.numPulled + 1, delta := some delta }, w) ({ t with numPulled := t.numPulled + 1, delta := some delta }, w)
    ⟨he, by rw [hn], hs, rfl⟩
  rw [ha, hb] at hsim2
  obtain ⟨-, g1, g2, g3, -⟩ := hsim2
  simp only at g1 g2 g3
  cases hest with
  | few l f0 e1 a b c d =>
    cases hest' with
    | few l' f0' e1' a' b' c' d' => exact ⟨rfl, rfl⟩
    | enough l' f0' e1' f1' sc1' e2' sc2' e3' lo' hi' e4' a' b' c' d' e' f' g' hn' hi'' =>
      rw [g3, a'] at a
      cases a
      rw [b'] at b
      cases b
      rw [g1, c'] at c
      cases c
      rw [d'] at d
      cases d
  | enough l f0 e1 f1 sc1 e2 sc2 e3 lo hi e4 a b c d e f g hn hi' =>
    cases hest' with
    | few l' f0' e1' a' b' c' d' =>
      rw [g3, a'] at a
      cases a
      rw [b'] at b
      cases b
      rw [g1, c'] at c
      cases c
      rw [d'] at d
      cases d
    | enough l' f0' e1' f1' sc1' e2' sc2' e3' lo' hi' e4' a' b' c' d' e' f' g' hn' hi'' =>
      rw [g3, a'] at a
      cases a
      rw [b'] at b
      cases b
      rw [g1, c'] at c
      cases c
      rw [e'] at e
      cases e
      rw [f'] at f
      cases f
      rw [g'] at g
      cases g
      exact ⟨rfl, rfl⟩

section Boot
variable [IsStrictOrderedRing α] [FloorRing α]

theorem keepEta_bootUpdate (cfg : BootConfig β) (ops : EtaOps E β α) (hr : ops.ResetLaws) (rng : Rng W α) (d : ExpData β) (delta : Fl α) :
    Py.Frame (KeepEta (W := W) ops) (bootUpdate cfg ops rng d delta) := by
  have B {A C : Type} {m : Py (ArmState E β α × W) A} {f : A → Py (ArmState E β α × W) C} :=
    @Py.Frame.bind _ A C _ (KeepEta.trans (W := W) ops) m f
  have R := KeepEta.refl (W := W) ops
  have M {f : ArmState E β α × W → ArmState E β α × W} := @Py.Frame.modify _ (KeepEta ops) f
  have hfit : ∀ d, Py.Frame (KeepEta (W := W) ops) (etaFit ops d) := fun d s => hr.fit s.1.eta d
  have hscore : ∀ d, Py.Frame (KeepEta (W := W) ops) (etaScore ops d) := fun d s => hr.score s.1.eta d
  have hloop : ∀ b k, Py.Frame (KeepEta (W := W) ops) (bootLoop ops rng b k) := by
    intro b k
    induction k with
    | zero => exact Py.Frame.pure R _
    | succ k ih =>
      exact B (frame_fold _ R 0) fun f0 => B (fun _ => rfl) fun p => B (hfit _) fun _ => B (hscore _) fun _ => B ih fun _ => Py.Frame.pure R _
  unfold bootUpdate
  split
  · exact Py.Frame.raise R _
  · split
    · refine B (M fun _ => rfl) fun _ => B (keepEta_addData ops _ _ _ _) fun _ => ?_
      unfold bootEstimate
      exact B (frame_fold _ R 0) fun f0 => B (hfit _) fun _ => B (hloop _ _) fun _ => B (Py.Frame.lift R _) fun _ => B (Py.Frame.lift R _) fun _ =>
        B (M fun _ => rfl) fun _ => B (frame_fold _ R 1) fun _ => B (hscore _) fun _ => B (M fun _ => rfl) fun _ => B (hscore _) fun _ =>
        B (M fun _ => rfl) fun _ => Py.Frame.pure R _
    · exact Py.Frame.raise R _

/-- the same core and the same interval -/
def SameCi (s t : ArmState E β α × W) : Prop := SameCore s t ∧ s.1.ci = t.1.ci

theorem respects_sameCi (ops : EtaOps E β α) : Respects ops ops (SameCi (E := E) (β := β) (α := α) (W := W)) where
  split := fun _ _ h => h.1.2.2.1
  num := fun _ _ h => h.1.2.1
  world := fun _ _ h => h.1.2.2.2
  enough := fun _ _ h => by rw [h.1.1]
  width := fun _ _ h => by rw [h.1.1]
  fit := fun d s t h => ⟨((respects_sameCore ops).fit d s t h.1).1, ((respects_sameCore ops).fit d s t h.1).2, h.2⟩
  score := fun d s t h => ⟨((respects_sameCore ops).score d s t h.1).1, ((respects_sameCore ops).score d s t h.1).2, h.2⟩
  setSplit := fun _ _ _ _ h => ⟨⟨h.1.1, h.1.2.1, rfl, rfl⟩, h.2⟩
  setCi := fun _ _ _ h => ⟨⟨h.1.1, h.1.2.1, h.1.2.2.1, h.1.2.2.2⟩, rfl⟩
  setAte := fun _ _ _ h => ⟨⟨h.1.1, h.1.2.1, h.1.2.2.1, h.1.2.2.2⟩, h.2⟩
  setVar := fun _ _ _ h => ⟨⟨h.1.1, h.1.2.1, h.1.2.2.1, h.1.2.2.2⟩, h.2⟩
  setNum := fun _ _ _ _ h => ⟨⟨h.1.1, rfl, h.1.2.2.1, h.1.2.2.2⟩, h.2⟩

/-- from programs that simulate each other -/
theorem rel_of_sim {σ A : Type} {R : σ → σ → Prop} {m m' : Py σ A} (h : Py.Sim R m m') : Py.Rel R m m' (fun _ => R) (fun _ _ => True) := by
  intro s t hst
  obtain ⟨h1, h2⟩ := h s t hst
  rcases hm : m s with ⟨r, s'⟩
  rcases hm' : m' t with ⟨r', t'⟩
  rw [hm, hm'] at h1 h2
  simp only at h1 h2
  subst h1
  cases r with
  | error e => exact Or.inr ⟨e, s', t', rfl, rfl, trivial⟩
  | ok a => exact Or.inl ⟨a, s', t', rfl, rfl, h2⟩

theorem rel_bootUpdate (cfg : BootConfig β) (ops : EtaOps E β α) (rng : Rng W α) (d : ExpData β) (delta : Fl α) :
    Py.Rel (SameCore (E := E) (β := β) (α := α) (W := W)) (bootUpdate cfg ops rng d delta) (bootUpdate cfg ops rng d delta)
      (fun _ s t => s.1.ci = t.1.ci ∧ s.1.varEst = t.1.varEst) (fun _ _ => True) := by
  have h := respects_sameCore (W := W) ops
  have h' := respects_sameCi (W := W) ops
  have T : ∀ s t, SameCore (E := E) (β := β) (α := α) (W := W) s t → True := fun _ _ _ => trivial
  unfold bootUpdate
  split
  · exact Py.Rel.raise T
  · split
    · refine Py.Rel.bind (rel_of_sim (h.sim_countPull _)) fun _ => Py.Rel.bind (rel_of_sim (h.sim_addData _ _ _ _)) fun _ => ?_
      unfold bootEstimate
      refine Py.Rel.bind (rel_of_sim (h.sim_fold 0)) fun f0 => Py.Rel.bind (rel_of_sim (h.fit f0)) fun _ =>
        Py.Rel.bind (rel_of_sim (h.sim_bootLoop _ _ _)) fun samples => Py.Rel.bind (rel_of_sim (Py.Sim.lift _)) fun lo =>
        Py.Rel.bind (rel_of_sim (Py.Sim.lift _)) fun hi => Py.Rel.bind (Q := fun _ => SameCi) ?_ fun _ =>
        Py.Rel.bind (rel_of_sim (h'.sim_fold 1)) fun f1 => Py.Rel.bind (rel_of_sim (h'.score f1)) fun _ =>
        Py.Rel.bind (rel_of_sim (Py.Sim.modify fun s t hst => h'.setAte s t _ hst)) fun _ =>
        Py.Rel.bind (rel_of_sim (h'.score f1)) fun sc => ?_
      · intro s t hst
        exact Or.inl ⟨_, _, _, rfl, rfl, h.setCi s t _ hst, rfl⟩
      · intro s t hst
        exact Or.inl ⟨_, _, _, rfl, rfl, hst.2, rfl⟩
    · exact Py.Rel.raise T

theorem bootUpdate_full {cfg : BootConfig β} {ops : EtaOps E β α} {rng : Rng W α} {d : ExpData β} {delta : Fl α}
    {s t : ArmState E β α × W} (hst : SameCore s t) {r} (hr : (bootUpdate cfg ops rng d delta s).1 = .ok r) :
    (bootUpdate cfg ops rng d delta s).2.1.ci = (bootUpdate cfg ops rng d delta t).2.1.ci ∧
    (bootUpdate cfg ops rng d delta s).2.1.varEst = (bootUpdate cfg ops rng d delta t).2.1.varEst := by
  rcases rel_bootUpdate cfg ops rng d delta s t hst with ⟨a, s', t', h1, h2, h3⟩ | ⟨e, s', t', h1, h2, h3⟩
  · rw [h1, h2]
    exact h3
  · rw [h1] at hr
    cases hr

end Boot

end Arm

namespace Bandit
variable {I E β α W : Type} [Field α] [LinearOrder α] [DecidableEq I]

/-- two arm objects that behave alike -/
def ObjCore (s t : ArmObj E β α) : Prop :=
  s.cfg = t.cfg ∧ s.cost = t.cost ∧ s.st.eta = t.st.eta ∧ s.st.numPulled = t.st.numPulled ∧ s.st.split = t.st.split

/-- ... and have the same estimates -/
def ObjFull (s t : ArmObj E β α) : Prop := ObjCore s t ∧ s.st.ci = t.st.ci ∧ s.st.varEst = t.st.varEst

theorem alike_obj (ops : EtaOps E β α) (lib : Libm α) (rng : Rng W α) :
    Alike (objOps ops lib rng) (ObjCore (E := E) (β := β) (α := α)) ObjFull where
  core := fun _ _ h => h.1
  cost := fun _ _ h => h.2.1
  numUnits := fun s t h => by
    show Arm.ssNumUnits s.st = Arm.ssNumUnits t.st
    simp only [Arm.ssNumUnits, h.2.2.2.2]
  ci := fun _ _ h => h.2.1
  varEst := fun _ _ h => h.2.2
  update := by
    rintro ⟨n, c, k, s⟩ ⟨n', c', k', t⟩ ⟨h1, h2, h3, h4, h5⟩ d δ w
    simp only at h1 h2 h3 h4 h5
    subst h1
    subst h2
    obtain ⟨g1, g2, g3, g4, g5⟩ := (Arm.respects_sameCore (W := W) ops).sim_ssUpdate c lib rng d δ (s, w) (t, w) ⟨h3, h4, h5, rfl⟩
    refine ⟨g1, g5, ⟨rfl, rfl, g2, g3, g4⟩, fun r hr => ⟨⟨rfl, rfl, g2, g3, g4⟩, ?_, ?_⟩⟩
    · exact (Arm.ssUpdate_full h3 h4 h5 hr).1
    · exact (Arm.ssUpdate_full h3 h4 h5 hr).2

/-- `D o s`: the arm `s` has come from `o` by updates and resets, and would be as new after a reset. -/
structure Resettable {S : Type} (ops : ArmOps S W β α) (D : S → S → Prop) : Prop where
  refl : ∀ o, D o o
  update : ∀ o s d δ w, D o s → D o (ops.update d δ (s, w)).2.1
  reset : ∀ o s, D o s → D o (ops.reset s)
  varEst : ∀ s, ops.varEst (ops.reset s) = none

omit [Field α] [LinearOrder α] in
theorem foldl_reset {S : Type} (ops : ArmOps S W β α) (P : I → S → Prop) (hP : ∀ a s, P a s → P a (ops.reset s)) (l : List I) (heap : I → S)
    (h : ∀ a, P a (heap a)) (a : I) : P a (l.foldl (fun h a => Function.update h a (ops.reset (h a))) heap a) := by
  induction l generalizing heap with
  | nil => exact h a
  | cons b l ih =>
    refine ih _ fun c => ?_
    dsimp only
    by_cases hc : c = b
    · subst hc
      rw [Function.update_self]
      exact hP _ _ (h c)
    · rw [Function.update_of_ne hc]
      exact h c

omit [Field α] [LinearOrder α] in
/-- every arm of the list has been reset, the last call on it being a reset -/
theorem foldl_reset_mem {S : Type} (ops : ArmOps S W β α) (P : I → S → Prop) (hP : ∀ a s, P a s → P a (ops.reset s)) (l : List I) (heap : I → S)
    (h : ∀ a, P a (heap a)) (a : I) (ha : a ∈ l) :
    ∃ s, P a s ∧ l.foldl (fun h a => Function.update h a (ops.reset (h a))) heap a = ops.reset s := by
  induction l using List.reverseRecOn with
  | nil => cases ha
  | append_singleton l b ih =>
    rw [List.foldl_append]
    simp only [List.foldl_cons, List.foldl_nil]
    by_cases hab : a = b
    · subst hab
      rw [Function.update_self]
      exact ⟨_, foldl_reset ops P hP l heap h a, rfl⟩
    · rw [Function.update_of_ne hab]
      refine ih ?_
      rcases List.mem_append.1 ha with ha | ha
      · exact ha
      · exact absurd (List.mem_singleton.1 ha) hab

theorem exec_descends {S : Type} {ops : ArmOps S W β α} {D : S → S → Prop} (hr : Resettable ops D) (heap0 : I → S)
    (calls : List (BanditCall I W β α)) (heap : I → S) (w : W) (h : ∀ a, D (heap0 a) (heap a)) (a : I) :
    D (heap0 a) ((BanditCall.exec ops calls (heap, w)).1 a) := by
  have hu : ∀ cfg : BanditCfg I α, ∀ b ∈ cfg.arms, ∀ d (s : I → S) (w : W), (∀ a, D (heap0 a) (s a)) →
      ∀ a, D (heap0 a) ((updateArm ops b d (level cfg) (s, w)).2.1 a) := by
    intro cfg b _ d s w hs a
    unfold updateArm
    dsimp only
    by_cases hab : a = b
    · subst hab
      rw [Function.update_self]
      exact hr.update _ _ d _ w (hs a)
    · rw [Function.update_of_ne hab]
      exact hs a
  induction calls generalizing heap w with
  | nil => exact h a
  | cons c calls ih =>
    cases c with
    | uniform env cfg all fuel =>
      exact ih _ _ (triple_all (fun s => ∀ a, D (heap0 a) (s a)) env ops cfg all (hu cfg) fuel heap w h).1
    | lucb env cfg all fuel =>
      exact ih _ _ (triple_all (fun s => ∀ a, D (heap0 a) (s a)) env ops cfg all (hu cfg) fuel heap w h).2.1
    | se env cfg all fuel =>
      exact ih _ _ (triple_all (fun s => ∀ a, D (heap0 a) (s a)) env ops cfg all (hu cfg) fuel heap w h).2.2
    | reset cfg =>
      exact ih _ _ fun b => foldl_reset ops (fun a s => D (heap0 a) s) (fun a s hs => hr.reset _ s hs) cfg.arms heap h b

/-- after any calls and a reset, the arms behave like fresh ones -/
theorem reset_agree {S : Type} {ops : ArmOps S W β α} {Core D Full : S → S → Prop} (hr : Resettable ops D) (heap0 : I → S) (cfg : BanditCfg I α)
    (hfresh : ∀ a ∈ cfg.arms, (∀ s, D (heap0 a) s → Core (ops.reset s) (heap0 a)) ∧ ops.varEst (heap0 a) = none)
    (calls : List (BanditCall I W β α)) (w0 : W) :
    let s := BanditCall.exec ops calls (heap0, w0)
    AgreeC Core Full cfg.arms (reset ops cfg s.1, s.2) (heap0, s.2) ∧
    ∀ a ∈ cfg.arms, ops.varEst (reset ops cfg s.1 a) = none ∧ ops.varEst (heap0 a) = none := by
  intro s
  have hd : ∀ a, D (heap0 a) (s.1 a) := fun a => exec_descends hr heap0 calls heap0 w0 (fun _ => hr.refl _) a
  have key : ∀ a ∈ cfg.arms, Core (reset ops cfg s.1 a) (heap0 a) ∧
      ops.varEst (reset ops cfg s.1 a) = none ∧ ops.varEst (heap0 a) = none := by
    intro a ha
    obtain ⟨s', h1, h4⟩ := foldl_reset_mem ops (fun a s => D (heap0 a) s) (fun a s hs => hr.reset _ s hs) cfg.arms s.1 hd a ha
    unfold reset
    rw [h4]
    exact ⟨(hfresh a ha).1 s' h1, hr.varEst _, (hfresh a ha).2⟩
  exact ⟨⟨rfl, fun a ha => ⟨(key a ha).1, fun h => h.elim⟩⟩, fun a ha => (key a ha).2⟩

/-- the three runs after any calls and a reset, and on fresh arms -/
theorem rerun {S : Type} {ops : ArmOps S W β α} {Core D Full : S → S → Prop} (ha : Alike ops Core Full) (hr : Resettable ops D) (heap0 : I → S)
    (cfg : BanditCfg I α)
    (hfresh : ∀ a ∈ cfg.arms, (∀ s, D (heap0 a) s → Core (ops.reset s) (heap0 a)) ∧ ops.varEst (heap0 a) = none)
    (calls : List (BanditCall I W β α)) (w0 : W) (env : BanditEnv W β) (all : Option (ExpData β)) (fuel : Nat) :
    let s := BanditCall.exec ops calls (heap0, w0)
    let s1 := (reset ops cfg s.1, s.2)
    let s2 := (heap0, s.2)
    ((uniformRun env ops cfg all fuel s1).1 = (uniformRun env ops cfg all fuel s2).1 ∧
      (uniformRun env ops cfg all fuel s1).2.2 = (uniformRun env ops cfg all fuel s2).2.2) ∧
    ((lucbRun env ops cfg all fuel s1).1 = (lucbRun env ops cfg all fuel s2).1 ∧
      (lucbRun env ops cfg all fuel s1).2.2 = (lucbRun env ops cfg all fuel s2).2.2) ∧
    ((seRun env ops cfg all fuel s1).1 = (seRun env ops cfg all fuel s2).1 ∧
      (seRun env ops cfg all fuel s1).2.2 = (seRun env ops cfg all fuel s2).2.2) := by
  intro s s1 s2
  obtain ⟨h1, h2⟩ := reset_agree (Core := Core) (Full := Full) hr heap0 cfg hfresh calls w0
  have u := (rel_uniformRun ha env cfg all fuel).same h1
  have l := (rel_lucbRun ha env cfg all fuel).same h1
  have e := (rel_seRun ha env cfg all fuel).same ⟨h1, h2⟩
  exact ⟨⟨u.1, u.2.1⟩, ⟨l.1, l.2.1⟩, ⟨e.1, e.2.1⟩⟩

/-- an arm object that would be like the fresh object `o` after a reset -/
def Descends (ops : EtaOps E β α) (o s : ArmObj E β α) : Prop :=
  s.cfg = o.cfg ∧ s.cost = o.cost ∧ ops.reset s.st.eta = ops.reset o.st.eta

theorem resettable_obj (ops : EtaOps E β α) (hr : ops.ResetLaws) (lib : Libm α) (rng : Rng W α) :
    Resettable (objOps ops lib rng) (Descends ops) where
  refl := fun _ => ⟨rfl, rfl, rfl⟩
  update := fun _ s d δ w h => ⟨h.1, h.2.1, Eq.trans (Arm.keepEta_ssUpdate s.cfg ops hr lib rng d δ (s.st, w)) h.2.2⟩
  reset := fun _ _ h => ⟨h.1, h.2.1, (hr.reset _).trans h.2.2⟩
  varEst := fun _ => rfl

theorem fresh_obj (ops : EtaOps E β α) (lib : Libm α) (rng : Rng W α) {o : ArmObj E β α} {e : E} (he : o.st = Arm.init e) (hr : ops.reset e = e) :
    (∀ s, Descends ops o s → ObjCore ((objOps ops lib rng).reset s) o) ∧ (objOps ops lib rng).varEst o = none := by
  constructor
  · rintro s ⟨h1, h2, h3⟩
    refine ⟨h1, h2, ?_, ?_, ?_⟩
    · show ops.reset s.st.eta = o.st.eta
      rw [h3, he]
      exact hr
    · rw [he]; rfl
    · rw [he]; rfl
  · show o.st.varEst = none
    rw [he]; rfl

/-- two arm states that behave alike -/
def StCore (s t : ArmState E β α) : Prop := s.eta = t.eta ∧ s.numPulled = t.numPulled ∧ s.split = t.split

/-- ... and have the same estimates -/
def StFull (s t : ArmState E β α) : Prop := StCore s t ∧ s.ci = t.ci ∧ s.varEst = t.varEst

section Boot
variable [IsStrictOrderedRing α] [FloorRing α]

theorem alike_boot (cfg : BootConfig β) (ops : EtaOps E β α) (rng : Rng W α) (cost : Fl α) :
    Alike (bootArmOps cfg ops rng cost) (StCore (E := E) (β := β) (α := α)) StFull where
  core := fun _ _ h => h.1
  cost := fun _ _ _ => rfl
  numUnits := fun _ _ _ => rfl
  ci := fun _ _ h => h.2.1
  varEst := fun _ _ h => h.2.2
  update := by
    rintro s t ⟨h3, h4, h5⟩ d δ w
    obtain ⟨g1, g2, g3, g4, g5⟩ := (Arm.respects_sameCore (W := W) ops).sim_bootUpdate cfg rng d δ (s, w) (t, w) ⟨h3, h4, h5, rfl⟩
    refine ⟨g1, g5, ⟨g2, g3, g4⟩, fun r hr => ⟨⟨g2, g3, g4⟩, ?_⟩⟩
    exact Arm.bootUpdate_full ⟨h3, h4, h5, rfl⟩ hr

theorem resettable_boot (cfg : BootConfig β) (ops : EtaOps E β α) (hr : ops.ResetLaws) (rng : Rng W α) (cost : Fl α) :
    Resettable (bootArmOps cfg ops rng cost) (fun o s => ops.reset s.eta = ops.reset o.eta) where
  refl := fun _ => rfl
  update := fun _ s d δ w h => Eq.trans (Arm.keepEta_bootUpdate cfg ops hr rng d δ (s, w)) h
  reset := fun _ _ h => (hr.reset _).trans h
  varEst := fun _ => rfl

end Boot

end Bandit

namespace AIPW
open Param
variable {M P : Type}

theorem reset_fit (R : Predictor M ℝ) (C : Predictor P ℝ) (hR : R.CloneLaws) (hC : C.CloneLaws) (d : ExpData (Cell ℝ)) (s : AIPW M P ℝ) :
    reset R C (fit R C d s).2 = reset R C s := by
  have hr1 : ∀ rows ys m, R.clone (R.fitRows rows ys m).2 = R.clone m := by
    intro rows ys m
    unfold Predictor.fitRows
    split
    · rfl
    · exact hR.fit _ _ _
  have hc1 : ∀ rows ys m, C.clone (C.fitRows rows ys m).2 = C.clone m := by
    intro rows ys m
    unfold Predictor.fitRows
    split
    · rfl
    · exact hC.fit _ _ _
  have trans : ∀ a b c : AIPW M P ℝ, reset R C b = reset R C a → reset R C c = reset R C b → reset R C c = reset R C a :=
    fun a b c h h' => h'.trans h
  have B {A D : Type} {m : Py (AIPW M P ℝ) A} {f : A → Py (AIPW M P ℝ) D} :=
    @Py.Frame.bind _ A D (fun a b => reset R C b = reset R C a) trans m f
  have L {A : Type} (x : Except PyErr A) := Py.Frame.lift (R := fun a b => reset R C b = reset R C a) (fun _ => rfl) x
  have RA {A : Type} (e : PyErr) := Py.Frame.raise (A := A) (R := fun a b => reset R C b = reset R C a) (fun _ => rfl) e
  have PU {A : Type} (x : A) := Py.Frame.pure (R := fun a b => reset R C b = reset R C a) (fun _ => rfl) x
  have : Py.Frame (fun a b => reset R C b = reset R C a) (fit R C d) := by
    unfold fit
    refine B (Py.Frame.get fun _ => rfl) fun s => ?_
    split
    · exact RA _
    · refine B (Py.Frame.modify fun _ => rfl) fun _ => B (L _) fun exp => ?_
      split
      · exact PU _
      · refine B (L _) fun rows => B (L _) fun rsp => B (fun s => ?_) fun _ => B (L _) fun zs => B (fun s => ?_) fun _ => Py.Frame.modify fun _ => rfl
        · simp only [zoom, reset, hr1]
        · simp only [zoom, reset, hc1]
  exact this s

theorem resetLaws (R : Predictor M ℝ) (C : Predictor P ℝ) (hR : R.CloneLaws) (hC : C.CloneLaws) : (ops R C).ResetLaws where
  fit := fun e d => reset_fit R C hR hC d e
  score := fun _ _ => rfl
  reset := fun e => by simp only [ops, reset, hR.clone, hC.clone]

end AIPW

namespace FrontDoor
open Param
variable {M : Type}

theorem resetLaws (R : Predictor M ℝ) (ridge0 : M) : (ops R ridge0).ResetLaws := by
  have trans : ∀ a b c : FrontDoor M ℝ, reset ridge0 b = reset ridge0 a → reset ridge0 c = reset ridge0 b → reset ridge0 c = reset ridge0 a :=
    fun a b c h h' => h'.trans h
  have B {A D : Type} {m : Py (FrontDoor M ℝ) A} {f : A → Py (FrontDoor M ℝ) D} :=
    @Py.Frame.bind _ A D (fun a b => reset ridge0 b = reset ridge0 a) trans m f
  have L {A : Type} (x : Except PyErr A) := Py.Frame.lift (R := fun a b => reset (M := M) (α := ℝ) ridge0 b = reset ridge0 a) (fun _ => rfl) x
  have RA {A : Type} (e : PyErr) := Py.Frame.raise (A := A) (R := fun a b => reset (M := M) (α := ℝ) ridge0 b = reset ridge0 a) (fun _ => rfl) e
  have PU {A : Type} (x : A) := Py.Frame.pure (R := fun a b => reset (M := M) (α := ℝ) ridge0 b = reset ridge0 a) (fun _ => rfl) x
  have K : ∀ xs zs, Py.Frame (fun a b => reset ridge0 b = reset ridge0 a) (look (M := M) (α := ℝ) xs zs) := fun xs zs s => rfl
  have S : ∀ m q xs p1 p0 sup acc, Py.Frame (fun a b => reset ridge0 b = reset ridge0 a) (supportLoop R m q xs p1 p0 sup acc) := by
    intro m q xs p1 p0 sup
    induction sup with
    | nil => intro acc; exact PU _
    | cons z sup ih =>
      rintro ⟨f1, f3⟩
      unfold supportLoop
      dsimp only
      split
      · exact RA _
      · exact B (K _ _) fun _ => B (K _ _) fun _ => ih _
  refine ⟨fun e d => ?_, fun e d => ?_, fun e => rfl⟩
  · have : Py.Frame (fun a b => reset ridge0 b = reset ridge0 a) (fit R d) := by
      unfold fit
      refine B (Py.Frame.get fun _ => rfl) fun s => ?_
      split
      · exact RA _
      · refine B (Py.Frame.modify fun _ => rfl) fun _ => B (L _) fun exp => ?_
        split
        · exact PU _
        · exact B (L _) fun rows => B (L _) fun rsp => B (fun s => rfl) fun _ => B (Py.Frame.modify fun _ => rfl) fun _ =>
            B (L _) fun zs => B (fun s => rfl) fun _ => Py.Frame.modify fun _ => rfl
    exact this e
  · have : Py.Frame (fun a b => reset ridge0 b = reset ridge0 a) (score R d) := by
      unfold score
      refine B ?_ fun _ => L _
      unfold transform
      refine B (Py.Frame.get fun _ => rfl) fun s => ?_
      split
      · exact RA _
      · split
        · exact PU _
        · exact B (L _) fun _ => B (L _) fun _ => B (L _) fun _ => B (L _) fun _ => B (K _ _) fun _ => B (K _ _) fun _ => B (K _ _) fun _ =>
            B (L _) fun _ => B (L _) fun _ => B (L _) fun _ => B (L _) fun _ => B (S _ _ _ _ _ _ _) fun _ => PU _
    exact this e

end FrontDoor

theorem sumEtaOps_resetLaws {E F β α : Type} (a : EtaOps E β α) (b : EtaOps F β α) (ha : a.ResetLaws) (hb : b.ResetLaws) :
    (sumEtaOps a b).ResetLaws where
  fit := by
    rintro (e | e) d
    · exact congrArg Sum.inl (ha.fit e d)
    · exact congrArg Sum.inr (hb.fit e d)
  score := by
    rintro (e | e) d
    · exact congrArg Sum.inl (ha.score e d)
    · exact congrArg Sum.inr (hb.score e d)
  reset := by
    rintro (e | e)
    · exact congrArg Sum.inl (ha.reset e)
    · exact congrArg Sum.inr (hb.reset e)

end Verif
