import Verif.Lemmas.Bandits4

/-!
# Invariants that hold whatever the outcome of a run, and termination
-/

set_option linter.unusedSectionVars false
set_option linter.unusedSimpArgs false

namespace Verif
namespace Bandit
variable {I S W β α : Type} [Field α] [LinearOrder α] [DecidableEq I]

section Generic
variable {P E : (I → S) → Prop} (hPE : ∀ s, P s → E s)
include hPE

theorem triple_heap {A : Type} {m : Py ((I → S) × W) A} (h : ∀ s, (m s).2.1 = s.1) :
    Py.Triple (fun s => P s.1) m (fun _ s => P s.1) (fun s => E s.1) := by
  intro s hs
  refine ⟨?_, ?_⟩
  · intro a s' e
    have := h s; rw [e] at this
    simp only at this ⊢; rw [this]; exact hs
  · intro a s' e
    have := h s; rw [e] at this
    simp only at this ⊢; rw [this]; exact hPE _ hs

theorem triple_generate (env : BanditEnv W β) (n : Nat) :
    Py.Triple (fun s : (I → S) × W => P s.1) (generate env n) (fun _ s => P s.1) (fun s => E s.1) :=
  triple_heap hPE fun _ => rfl

theorem triple_lift {A : Type} (x : Except PyErr A) :
    Py.Triple (fun s : (I → S) × W => P s.1) (Py.lift x) (fun _ s => P s.1) (fun s => E s.1) :=
  triple_heap hPE fun _ => rfl

theorem triple_record (ops : ArmOps S W β α) (k : I → Nat) (a : I) (h : Hist I α) :
    Py.Triple (fun s : (I → S) × W => P s.1) (record ops k a h) (fun _ s => P s.1) (fun s => E s.1) :=
  triple_heap hPE fun _ => rfl

theorem triple_forEach {H : Type} {f : I → H → Py ((I → S) × W) H} (l : List I)
    (hf : ∀ a ∈ l, ∀ h, Py.Triple (fun s => P s.1) (f a h) (fun _ s => P s.1) (fun s => E s.1)) (h : H) :
    Py.Triple (fun s => P s.1) (Py.forEach f l h) (fun _ s => P s.1) (fun s => E s.1) := by
  induction l generalizing h with
  | nil => exact Py.Triple.pure fun s hs => hs
  | cons a l ih =>
    rw [Py.forEach_cons]
    exact Py.Triple.bind (hf a (by simp) h) fun h' => ih (fun b hb => hf b (by simp [hb])) h'

theorem triple_chooseTwo (env : BanditEnv W β) (arms : List I) :
    Py.Triple (fun s : (I → S) × W => P s.1) (chooseTwo env arms) (fun _ s => P s.1) (fun s => E s.1) := by
  apply triple_heap hPE
  intro s; unfold chooseTwo; dsimp only; split <;> rfl

theorem triple_chooseMasked (env : BanditEnv W β) (arms : List I) (mask : List Bool) :
    Py.Triple (fun s : (I → S) × W => P s.1) (chooseMasked env arms mask) (fun _ s => P s.1) (fun s => E s.1) := by
  apply triple_heap hPE
  intro s; unfold chooseMasked; dsimp only; split <;> rfl

theorem triple_get : Py.Triple (fun s : (I → S) × W => P s.1) Py.get (fun _ s => P s.1) (fun s => E s.1) :=
  triple_heap hPE fun _ => rfl

theorem triple_selectArms (env : BanditEnv W β) (ops : ArmOps S W β α) (cfg : BanditCfg I α) :
    Py.Triple (fun s : (I → S) × W => P s.1) (selectArms env ops cfg) (fun l s => P s.1 ∧ ∀ a ∈ l, a ∈ cfg.arms) (fun s => E s.1) := by
  have h : Py.Triple (fun s : (I → S) × W => P s.1) (selectArms env ops cfg) (fun _ s => P s.1) (fun s => E s.1) := by
    unfold selectArms
    refine Py.Triple.bind (triple_get hPE) fun st => ?_
    dsimp only
    refine Py.Triple.bind (triple_lift hPE _) fun b => ?_
    refine Py.Triple.bind (triple_lift hPE _) fun v => ?_
    split
    · exact triple_chooseTwo hPE _ _
    · refine Py.Triple.bind (triple_lift hPE _) fun _ => Py.Triple.bind (triple_lift hPE _) fun _ =>
        Py.Triple.bind (triple_chooseMasked hPE _ _ _) fun _ => Py.Triple.bind (triple_chooseMasked hPE _ _ _) fun _ => ?_
      exact Py.Triple.pure fun s hs => hs
  intro s hs
  exact ⟨fun a s' e => ⟨(h s hs).1 a s' e, (selectArms_ok e).2.2⟩, (h s hs).2⟩

/-- LUCB keeps whatever single pulls keep. -/
theorem triple_lucbLoop (env : BanditEnv W β) (ops : ArmOps S W β α) (cfg : BanditCfg I α) (all : Option (ExpData β))
    (hp : ∀ a ∈ cfg.arms, Py.Triple (fun s => P s.1) (pull env ops cfg all a ()) (fun _ s => P s.1) (fun s => E s.1))
    (fuel : Nat) (h : Hist I α) :
    Py.Triple (fun s => P s.1) (Py.loop (lucbRound env ops cfg all) fuel h) (fun _ s => E s.1) (fun s => E s.1) := by
  refine Py.Triple.loop (Inv := fun _ (s : (I → S) × W) => P s.1) (fun h => ?_) (fun _ s hs => hPE _ hs) fuel h
  unfold lucbRound
  refine Py.Triple.bind (triple_lift hPE _) fun over => ?_
  split
  · refine Py.Triple.bind (triple_get hPE) fun _ => ?_
    dsimp only
    refine Py.Triple.bind (triple_lift hPE _) fun _ => ?_
    exact Py.Triple.pure fun s hs => hPE _ hs
  · refine Py.Triple.bind (triple_selectArms hPE env ops cfg) fun chosen => ?_
    refine Py.Triple.bind (Q := fun _ s => P s.1) ?_ fun _ => ?_
    · intro s hs
      exact triple_forEach hPE chosen (fun a ha _ => hp a (hs.2 a ha)) () s hs.1
    · refine Py.Triple.bind (triple_forEach hPE _ (fun a _ h => triple_record hPE _ _ a h) _) fun _ => ?_
      dsimp only
      refine Py.Triple.bind (triple_get hPE) fun _ => ?_
      refine Py.Triple.bind (triple_lift hPE _) fun r => ?_
      split
      · exact Py.Triple.pure fun s hs => hPE _ hs
      · exact Py.Triple.pure fun s hs => hs

/-- Successive elimination keeps whatever single pulls keep. -/
theorem triple_seRun (env : BanditEnv W β) (ops : ArmOps S W β α) (cfg : BanditCfg I α) (all : Option (ExpData β))
    (hp : ∀ a ∈ cfg.arms, Py.Triple (fun s => P s.1) (pull env ops cfg all a ()) (fun _ s => P s.1) (fun s => E s.1))
    (fuel : Nat) :
    Py.Triple (fun s => P s.1) (seRun env ops cfg all fuel) (fun _ s => E s.1) (fun s => E s.1) := by
  unfold seRun
  have key : Py.Triple (fun s => P s.1 ∧ ∀ a ∈ cfg.arms, a ∈ cfg.arms) (Py.loop (seRound env ops cfg all) fuel (Hist.empty, cfg.arms))
      (fun _ s => E s.1) (fun s => E s.1) := by
    refine Py.Triple.loop (Inv := fun (st : Hist I α × List I) (s : (I → S) × W) => P s.1 ∧ ∀ a ∈ st.2, a ∈ cfg.arms) (fun st => ?_) (fun _ s hs => hPE _ hs.1) fuel (Hist.empty, cfg.arms)
    unfold seRound
    split
    · exact Py.Triple.pure fun s hs => hPE _ hs.1
    · by_cases hsub : ∀ a ∈ st.2, a ∈ cfg.arms
      · refine Py.Triple.weaken (P := fun s => P s.1) (E := fun s => E s.1) ?_ (fun s hs => hs.1) (fun _ _ h => h) (fun _ h => h)
        refine Py.Triple.bind (triple_lift hPE _) fun over => ?_
        split
        · refine Py.Triple.bind (triple_get hPE) fun _ => ?_
          dsimp only
          refine Py.Triple.bind (triple_lift hPE _) fun _ => ?_
          exact Py.Triple.pure fun s hs => hPE _ hs
        · refine Py.Triple.bind (triple_forEach hPE st.2 (fun a ha _ => hp a (hsub a ha)) ()) fun _ => ?_
          dsimp only
          refine Py.Triple.bind (triple_forEach hPE _ (fun a _ h => triple_record hPE _ _ a h) _) fun h' => ?_
          refine Py.Triple.bind (Q := fun next s => P s.1 ∧ ∀ a ∈ next, a ∈ cfg.arms) ?_ fun next => ?_
          · refine Py.Triple.lift (fun next s hs e => ⟨hs, ?_⟩) (fun s hs => hPE _ hs)
            intro a ha
            refine hsub a ?_
            unfold eliminate at e
            simp only [bind, Except.bind] at e
            repeat' split at e
            all_goals try (simp at e)
            simp only [pure, Except.pure, Except.ok.injEq] at e
            rw [← e] at ha
            exact (ExpData.filterMask_sublist _ _).subset ha
          · split
            · exact Py.Triple.pure fun s hs => hPE _ hs.1
            · exact Py.Triple.pure fun s hs => hs
      · intro s hs; exact absurd hs.2 hsub
  intro s hs
  exact key s ⟨hs, fun _ h => h⟩

theorem triple_uniformSamples (env : BanditEnv W β) (ops : ArmOps S W β α) (cfg : BanditCfg I α) (all : Option (ExpData β)) :
    Py.Triple (fun s : (I → S) × W => P s.1) (uniformSamples env ops cfg all) (fun _ s => P s.1) (fun s => E s.1) := by
  apply triple_heap hPE
  intro s
  unfold uniformSamples
  split
  · rfl
  · cases cfg.arms <;> rfl

theorem triple_lucbFirst (env : BanditEnv W β) (cfg : BanditCfg I α) (all : Option (ExpData β)) :
    Py.Triple (fun s : (I → S) × W => P s.1) (lucbFirst env cfg all) (fun _ s => P s.1) (fun s => E s.1) := by
  apply triple_heap hPE
  intro s
  unfold lucbFirst
  split <;> rfl

theorem triple_uniformTail (ops : ArmOps S W β α) (cfg : BanditCfg I α) (h : Hist I α) :
    Py.Triple (fun s : (I → S) × W => P s.1) (do
      let over ← Py.lift (overLimit cfg h.total)
      let (heap, _) ← Py.get
      if over then
        let best ← Py.lift (lowestVarArms ops cfg heap)
        return (.inr (Hist.done h best) : Hist I α ⊕ BanditData I α)
      else
        let (ends, best) ← Py.lift (checkEnd ops cfg heap)
        if ends then return .inr (Hist.done h best)
        else return .inl h)
      (fun x s => Sum.elim (fun _ => P s.1) (fun _ => E s.1) x) (fun s => E s.1) := by
  refine Py.Triple.bind (triple_lift hPE _) fun over => ?_
  refine Py.Triple.bind (triple_get hPE) fun st => ?_
  obtain ⟨heap, w⟩ := st
  dsimp only
  split
  · refine Py.Triple.bind (triple_lift hPE _) fun _ => ?_
    exact Py.Triple.pure fun s hs => hPE _ hs
  · refine Py.Triple.bind (triple_lift hPE _) fun r => ?_
    split
    · exact Py.Triple.pure fun s hs => hPE _ hs
    · exact Py.Triple.pure fun s hs => hs

end Generic

/-- What every single `update` at the prescribed level keeps, every run of every algorithm keeps. -/
theorem triple_all (P : (I → S) → Prop) (env : BanditEnv W β) (ops : ArmOps S W β α) (cfg : BanditCfg I α) (all : Option (ExpData β))
    (hu : ∀ a ∈ cfg.arms, ∀ d s w, P s → P (updateArm ops a d (level cfg) (s, w)).2.1) (fuel : Nat) (s : I → S) (w : W) (hs : P s) :
    P (uniformRun env ops cfg all fuel (s, w)).2.1 ∧ P (lucbRun env ops cfg all fuel (s, w)).2.1 ∧
    P (seRun env ops cfg all fuel (s, w)).2.1 := by
  have hPE : ∀ s, P s → P s := fun _ h => h
  have hU : ∀ a ∈ cfg.arms, ∀ d, Py.Triple (fun s : (I → S) × W => P s.1) (updateArm ops a d (level cfg)) (fun _ s => P s.1) (fun s => P s.1) := by
    intro a ha d s hs
    have := hu a ha d s.1 s.2 hs
    exact ⟨fun x s' e => by rw [e] at this; exact this, fun x s' e => by rw [e] at this; exact this⟩
  have hsamp : ∀ a, Py.Triple (fun s : (I → S) × W => P s.1) (samplesFor env ops all cfg.unitsPerRound a) (fun _ s => P s.1) (fun s => P s.1) := by
    intro a
    apply triple_heap hPE
    intro s; unfold samplesFor; split <;> rfl
  have hpull : ∀ a ∈ cfg.arms, Py.Triple (fun s : (I → S) × W => P s.1) (pull env ops cfg all a ()) (fun _ s => P s.1) (fun s => P s.1) := by
    intro a ha
    unfold pull
    exact Py.Triple.bind (hsamp a) fun d => hU a ha d
  have hrec : ∀ d, ∀ a ∈ cfg.arms, ∀ h, Py.Triple (fun s : (I → S) × W => P s.1) (updateRecord ops cfg d a h) (fun _ s => P s.1) (fun s => P s.1) := by
    intro d a ha h
    unfold updateRecord
    exact Py.Triple.bind (hU a ha d) fun _ => triple_record hPE _ _ _ _
  have fin : ∀ {A : Type} {m : Py ((I → S) × W) A}, Py.Triple (fun s => P s.1) m (fun _ s => P s.1) (fun s => P s.1) → P (m (s, w)).2.1 := by
    intro A m h
    rcases e : m (s, w) with ⟨r, s'⟩
    cases r with
    | ok a => exact (h (s, w) hs).1 a s' e
    | error x => exact (h (s, w) hs).2 x s' e
  refine ⟨fin ?_, fin ?_, fin (triple_seRun hPE env ops cfg all hpull fuel)⟩
  · unfold uniformRun
    refine Py.Triple.loop (Inv := fun _ (s : (I → S) × W) => P s.1) (fun h => ?_) (fun _ s hs => hs) fuel _
    unfold uniformRound
    refine Py.Triple.bind (triple_uniformSamples hPE env ops cfg all) fun d => ?_
    refine Py.Triple.bind (triple_forEach hPE _ (hrec d) _) fun h' => ?_
    exact triple_uniformTail hPE ops cfg (addSamples (cfg.arms.length * cfg.unitsPerRound) h')
  · unfold lucbRun
    refine Py.Triple.bind (triple_lucbFirst hPE env cfg all) fun d => ?_
    refine Py.Triple.bind (triple_forEach hPE _ (hrec d) _) fun h' => ?_
    exact triple_lucbLoop hPE env ops cfg all hpull fuel _

end Bandit
end Verif
