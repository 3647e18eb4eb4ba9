import Verif.Model.Bandits

/-!
# Invariants of bandit runs that also survive exceptions
-/

namespace Verif
namespace Py
variable {σ A B H R I : Type}

/-- `m` keeps `J`, also if it raises; its results satisfy `Q` -/
def Keeps (J : σ → Prop) (m : Py σ A) (Q : A → Prop) : Prop := ∀ s, J s → J (m s).2 ∧ ∀ a, (m s).1 = .ok a → Q a

variable {J : σ → Prop}

theorem Keeps.bind {m : Py σ A} {f : A → Py σ B} {Q : A → Prop} {Q' : B → Prop} (hm : Keeps J m Q) (hf : ∀ a, Q a → Keeps J (f a) Q') :
    Keeps J (m >>= f) Q' := by
  intro s hs
  obtain ⟨h1, h2⟩ := hm s hs
  rcases h : m s with ⟨e | a, s'⟩
  · rw [h] at h1
    rw [show (m >>= f) s = (.error e, s') from by simp only [Py.bind_apply, h]]
    exact ⟨h1, fun b hb => by cases hb⟩
  · rw [h] at h1 h2
    rw [show (m >>= f) s = f a s' from by simp only [Py.bind_apply, h]]
    exact hf a (h2 a rfl) s' h1

theorem Keeps.pure (a : A) : Keeps J (Pure.pure a : Py σ A) fun _ => True := fun _ hs => ⟨hs, fun _ _ => trivial⟩

theorem Keeps.lift (x : Except PyErr A) : Keeps J (Py.lift x) fun _ => True := fun _ hs => ⟨hs, fun _ _ => trivial⟩

theorem Keeps.get : Keeps J (Py.get : Py σ σ) fun _ => True := fun _ hs => ⟨hs, fun _ _ => trivial⟩

theorem Keeps.forEach {f : I → H → Py σ H} (hf : ∀ a h, Keeps J (f a h) fun _ => True) (l : List I) (h : H) :
    Keeps J (Py.forEach f l h) fun _ => True := by
  induction l generalizing h with
  | nil => exact Keeps.pure h
  | cons a l ih => exact Keeps.bind (hf a h) fun h' _ => ih h'

theorem Keeps.loop {body : H → Py σ (H ⊕ R)} (hb : ∀ h, Keeps J (body h) fun _ => True) (n : Nat) (h : H) :
    Keeps J (Py.loop body n h) fun _ => True := by
  induction n generalizing h with
  | zero => exact Keeps.pure _
  | succ n ih =>
    unfold Py.loop
    refine Keeps.bind (hb h) fun x _ => ?_
    cases x with
    | inl h' => exact ih h'
    | inr r => exact Keeps.pure _

end Py

namespace Bandit
variable {I S W β α : Type} [Field α] [LinearOrder α] [DecidableEq I]

/-- a property of heap and world that survives whatever a run without fixed data does to them -/
structure Kept (env : BanditEnv W β) (ops : ArmOps S W β α) (cfg : BanditCfg I α) (J : (I → S) × W → Prop) (G : ExpData β → Prop) : Prop where
  generate : Py.Keeps J (generate env cfg.unitsPerRound) G
  update : ∀ a d, G d → Py.Keeps J (updateArm ops a d (level cfg)) fun _ => True
  choice : ∀ heap w n h, J (heap, w) → J (heap, (env.choice n h w).2)
  choice2 : ∀ heap w n h, J (heap, w) → J (heap, (env.choice2 n h w).2)

variable {env : BanditEnv W β} {ops : ArmOps S W β α} {cfg : BanditCfg I α} {J : (I → S) × W → Prop} {G : ExpData β → Prop}

theorem Kept.record (k : I → Nat) (a : I) (h : Hist I α) : Py.Keeps J (record (W := W) ops k a h) fun _ => True :=
  fun _ hs => ⟨hs, fun _ _ => trivial⟩

theorem Kept.select (hk : Kept env ops cfg J G) : Py.Keeps J (selectArms env ops cfg) fun _ => True := by
  have two : Py.Keeps J (chooseTwo env cfg.arms) fun _ => True := by
    rintro ⟨heap, w⟩ hs
    unfold chooseTwo
    by_cases h : 2 ≤ cfg.arms.length
    · simpa [h] using hk.choice2 heap w _ _ hs
    · simpa [h] using hs
  have one : ∀ mask, Py.Keeps J (chooseMasked env cfg.arms mask) fun _ => True := by
    rintro mask ⟨heap, w⟩ hs
    unfold chooseMasked
    by_cases h : 0 < (selectMask cfg.arms mask).length
    · simpa [h] using hk.choice heap w _ _ hs
    · simpa [h] using hs
  unfold selectArms
  refine Py.Keeps.get.bind fun x _ => ?_
  dsimp only
  refine (Py.Keeps.lift _).bind fun b _ => (Py.Keeps.lift _).bind fun m _ => ?_
  split
  · exact two
  · exact (Py.Keeps.lift _).bind fun _ _ => (Py.Keeps.lift _).bind fun _ _ => (one _).bind fun _ _ => (one _).bind fun _ _ => Py.Keeps.pure _

theorem Kept.pull (hk : Kept env ops cfg J G) (a : I) (u : Unit) : Py.Keeps J (pull env ops cfg none a u) fun _ => True :=
  hk.generate.bind fun d hd => hk.update a d hd

theorem Kept.updateRecord (hk : Kept env ops cfg J G) {d : ExpData β} (hd : G d) (a : I) (h : Hist I α) :
    Py.Keeps J (updateRecord ops cfg d a h) fun _ => True :=
  (hk.update a d hd).bind fun _ _ => Kept.record _ a h

theorem Kept.run (hk : Kept env ops cfg J G) (run : Nat → Py ((I → S) × W) (Option (BanditData I α)))
    (hrun : run ∈ [uniformRun env ops cfg none, lucbRun env ops cfg none, seRun env ops cfg none]) (n : Nat) {s : (I → S) × W} (hs : J s) :
    J (run n s).2 := by
  refine (show Py.Keeps J (run n) fun _ => True from ?_) s hs |>.1
  simp only [List.mem_cons, List.not_mem_nil, or_false] at hrun
  rcases hrun with rfl | rfl | rfl
  · refine Py.Keeps.loop (fun h => ?_) n _
    unfold uniformRound
    refine hk.generate.bind fun d hd => (Py.Keeps.forEach (hk.updateRecord hd) _ _).bind fun h _ => (Py.Keeps.lift _).bind fun o _ =>
      Py.Keeps.get.bind fun x _ => ?_
    dsimp only
    split
    · exact (Py.Keeps.lift _).bind fun _ _ => Py.Keeps.pure _
    · refine (Py.Keeps.lift _).bind fun y _ => ?_
      split <;> exact Py.Keeps.pure _
  · unfold lucbRun
    refine hk.generate.bind fun d hd => (Py.Keeps.forEach (hk.updateRecord hd) _ _).bind fun h _ => Py.Keeps.loop (fun h => ?_) n _
    unfold lucbRound
    refine (Py.Keeps.lift _).bind fun o _ => ?_
    split
    · refine Py.Keeps.get.bind fun x _ => ?_
      dsimp only
      exact (Py.Keeps.lift _).bind fun _ _ => Py.Keeps.pure _
    · refine hk.select.bind fun c _ => (Py.Keeps.forEach hk.pull _ _).bind fun _ _ => (Py.Keeps.forEach (Kept.record _) _ _).bind fun h _ =>
        Py.Keeps.get.bind fun x _ => ?_
      dsimp only
      refine (Py.Keeps.lift _).bind fun y _ => ?_
      split <;> exact Py.Keeps.pure _
  · refine Py.Keeps.loop (fun st => ?_) n _
    unfold seRound
    split
    · exact Py.Keeps.pure _
    · refine (Py.Keeps.lift _).bind fun o _ => ?_
      split
      · refine Py.Keeps.get.bind fun x _ => ?_
        dsimp only
        exact (Py.Keeps.lift _).bind fun _ _ => Py.Keeps.pure _
      · refine (Py.Keeps.forEach hk.pull _ _).bind fun _ _ => (Py.Keeps.forEach (Kept.record _) _ _).bind fun h _ =>
          (Py.Keeps.lift _).bind fun y _ => ?_
        split <;> exact Py.Keeps.pure _

end Bandit
end Verif
