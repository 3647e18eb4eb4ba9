import Verif.Lemmas.Bandits6
import Verif.Model.PaperBandits
import Verif.Lemmas.Arms8
import Verif.Lemmas.Arms9

/-!
# Running a bandit from two heaps whose arms agree on everything but their current estimates
-/

set_option linter.unusedSectionVars false
set_option linter.unusedSimpArgs false

namespace Verif

namespace Py
variable {σ τ A B H R' I : Type}

/-- From related states both programs return the same value or raise the same exception. -/
def Rel (R : σ → τ → Prop) (m : Py σ A) (m' : Py τ A) (Q : A → σ → τ → Prop) (E : σ → τ → Prop) : Prop :=
  ∀ s t, R s t → (∃ a s' t', m s = (.ok a, s') ∧ m' t = (.ok a, t') ∧ Q a s' t') ∨
    (∃ e s' t', m s = (.error e, s') ∧ m' t = (.error e, t') ∧ E s' t')

variable {R : σ → τ → Prop} {E : σ → τ → Prop}

theorem Rel.bind {m : Py σ A} {m' : Py τ A} {f : A → Py σ B} {f' : A → Py τ B} {Q : A → σ → τ → Prop} {Q' : B → σ → τ → Prop}
    (hm : Rel R m m' Q E) (hf : ∀ a, Rel (Q a) (f a) (f' a) Q' E) : Rel R (m >>= f) (m' >>= f') Q' E := by
  intro s t hst
  rcases hm s t hst with ⟨a, s', t', h1, h2, h3⟩ | ⟨e, s', t', h1, h2, h3⟩
  · rw [bind_ok h1, bind_ok h2]
    exact hf a s' t' h3
  · rw [bind_error h1, bind_error h2]
    exact Or.inr ⟨e, s', t', rfl, rfl, h3⟩

theorem Rel.pure {a : A} {Q : A → σ → τ → Prop} (h : ∀ s t, R s t → Q a s t) : Rel R (Pure.pure a) (Pure.pure a) Q E :=
  fun s t hst => Or.inl ⟨a, s, t, rfl, rfl, h s t hst⟩

theorem Rel.raise {e : PyErr} {Q : A → σ → τ → Prop} (h : ∀ s t, R s t → E s t) : Rel R (Py.raise e) (Py.raise e) Q E :=
  fun s t hst => Or.inr ⟨e, s, t, rfl, rfl, h s t hst⟩

theorem Rel.lift {x x' : Except PyErr A} {Q : A → σ → τ → Prop} (hx : ∀ s t, R s t → x = x') (h : ∀ a s t, R s t → x = .ok a → Q a s t)
    (he : ∀ s t, R s t → E s t) : Rel R (Py.lift x) (Py.lift x') Q E := by
  intro s t hst
  rw [← hx s t hst]
  rcases x with e | a
  · exact Or.inr ⟨e, s, t, rfl, rfl, he s t hst⟩
  · exact Or.inl ⟨a, s, t, rfl, rfl, h a s t hst rfl⟩

theorem Rel.get_bind {f : σ → Py σ B} {f' : τ → Py τ B} {Q : B → σ → τ → Prop}
    (hf : ∀ s t, R s t → Rel (fun s' t' => s' = s ∧ t' = t) (f s) (f' t) Q E) : Rel R (get >>= f) (get >>= f') Q E :=
  fun s t hst => hf s t hst s t ⟨rfl, rfl⟩

theorem Rel.weaken {R' : σ → τ → Prop} {m : Py σ A} {m' : Py τ A} {Q Q' : A → σ → τ → Prop} {E' : σ → τ → Prop}
    (h : Rel R m m' Q E) (hr : ∀ s t, R' s t → R s t) (hq : ∀ a s t, Q a s t → Q' a s t) (he : ∀ s t, E s t → E' s t) :
    Rel R' m m' Q' E' := by
  intro s t hst
  rcases h s t (hr s t hst) with ⟨a, s', t', h1, h2, h3⟩ | ⟨e, s', t', h1, h2, h3⟩
  · exact Or.inl ⟨a, s', t', h1, h2, hq _ _ _ h3⟩
  · exact Or.inr ⟨e, s', t', h1, h2, he _ _ h3⟩

theorem Rel.forEach {f : I → H → Py σ H} {f' : I → H → Py τ H} (J : List I → σ → τ → Prop) (l : List I)
    (hf : ∀ pre a post h, l = pre ++ a :: post → Rel (J pre) (f a h) (f' a h) (fun _ => J (pre ++ [a])) E) (h : H) :
    Rel (J []) (Py.forEach f l h) (Py.forEach f' l h) (fun _ => J l) E := by
  suffices H : ∀ pre post h, l = pre ++ post → Rel (J pre) (Py.forEach f post h) (Py.forEach f' post h) (fun _ => J l) E from H [] l h rfl
  intro pre post
  induction post generalizing pre with
  | nil =>
    intro h hl
    rw [List.append_nil] at hl
    subst hl
    exact Rel.pure fun s t hst => hst
  | cons a post ih =>
    intro h hl
    exact Rel.bind (hf pre a post h hl) fun h' => ih (pre ++ [a]) h' (by simpa using hl)

theorem Rel.loop {body : H → Py σ (H ⊕ R')} {body' : H → Py τ (H ⊕ R')} (J : H → σ → τ → Prop) (P : σ → τ → Prop)
    (hJ : ∀ h s t, J h s t → P s t)
    (hb : ∀ h, Rel (J h) (body h) (body' h) (fun x s t => Sum.elim (fun h' => J h' s t) (fun _ => P s t) x) E) (n : Nat) (h : H) :
    Rel (J h) (Py.loop body n h) (Py.loop body' n h) (fun _ => P) E := by
  induction n generalizing h with
  | zero => exact Rel.pure fun s t hst => hJ h s t hst
  | succ n ih =>
    unfold Py.loop
    refine Rel.bind (hb h) fun x => ?_
    cases x with
    | inl h' => exact ih h'
    | inr r => exact Rel.pure fun s t hst => hst

/-- what a relational statement says about one pair of runs -/
theorem Rel.same {m : Py σ A} {m' : Py τ A} {P : σ → τ → Prop} (h : Rel R m m' (fun _ => P) P) {s : σ} {t : τ} (hst : R s t) :
    (m s).1 = (m' t).1 ∧ P (m s).2 (m' t).2 := by
  rcases h s t hst with ⟨a, s', t', h1, h2, h3⟩ | ⟨e, s', t', h1, h2, h3⟩ <;> rw [h1, h2] <;> exact ⟨rfl, h3⟩

end Py

namespace Bandit
variable {I S W β α : Type} [Field α] [LinearOrder α] [DecidableEq I]

/-- Arm states that behave alike (`Core`), and moreover have the same current estimates (`Full`). -/
structure Alike (ops : ArmOps S W β α) (Core Full : S → S → Prop) : Prop where
  core : ∀ s t, Full s t → Core s t
  cost : ∀ s t, Core s t → ops.cost s = ops.cost t
  numUnits : ∀ s t, Core s t → ops.numUnits s = ops.numUnits t
  ci : ∀ s t, Full s t → ops.ci s = ops.ci t
  varEst : ∀ s t, Full s t → ops.varEst s = ops.varEst t
  update : ∀ s t, Core s t → ∀ d δ w, (ops.update d δ (s, w)).1 = (ops.update d δ (t, w)).1 ∧
    (ops.update d δ (s, w)).2.2 = (ops.update d δ (t, w)).2.2 ∧
    Core (ops.update d δ (s, w)).2.1 (ops.update d δ (t, w)).2.1 ∧
    (∀ r, (ops.update d δ (s, w)).1 = .ok r → Full (ops.update d δ (s, w)).2.1 (ops.update d δ (t, w)).2.1)

variable {ops : ArmOps S W β α} {Core Full : S → S → Prop}

/-- The arms of a list behave alike; those in `P` have the same estimates. -/
def Agree (Core Full : S → S → Prop) (arms : List I) (P : I → Prop) (s t : (I → S) × W) : Prop :=
  s.2 = t.2 ∧ ∀ a ∈ arms, Core (s.1 a) (t.1 a) ∧ (P a → Full (s.1 a) (t.1 a))

theorem Agree.mono {arms : List I} {P P' : I → Prop} {s t : (I → S) × W} (h : Agree Core Full arms P s t) (hp : ∀ a ∈ arms, P' a → P a) :
    Agree Core Full arms P' s t :=
  ⟨h.1, fun a ha => ⟨(h.2 a ha).1, fun hp' => (h.2 a ha).2 (hp a ha hp')⟩⟩

/-- the weakest agreement -/
abbrev AgreeC (Core Full : S → S → Prop) (arms : List I) (s t : (I → S) × W) : Prop := Agree Core Full arms (fun _ => False) s t

theorem Agree.weak {arms : List I} {P : I → Prop} {s t : (I → S) × W} (h : Agree Core Full arms P s t) : AgreeC Core Full arms s t :=
  h.mono fun _ _ h => h.elim

variable (hA : Alike ops Core Full)
include hA

theorem rel_updateArm (arms : List I) (P : I → Prop) (a : I) (ha : a ∈ arms) (d : ExpData β) (δ : Fl α) :
    Py.Rel (Agree Core Full arms P) (updateArm ops a d δ) (updateArm ops a d δ)
      (fun _ => Agree Core Full arms fun b => b = a ∨ P b) (AgreeC Core Full arms) := by
  rintro ⟨hp, w⟩ ⟨hp', w'⟩ ⟨hw, h⟩
  simp only at hw
  subst hw
  obtain ⟨h1, h2, h3, h4⟩ := hA.update _ _ (h a ha).1 d δ w
  have key : ∀ P' : I → Prop, (P' a → Full (ops.update d δ (hp a, w)).2.1 (ops.update d δ (hp' a, w)).2.1) →
      (∀ b, b ≠ a → P' b → P b) → Agree Core Full arms P'
        (Function.update hp a (ops.update d δ (hp a, w)).2.1, (ops.update d δ (hp a, w)).2.2)
        (Function.update hp' a (ops.update d δ (hp' a, w)).2.1, (ops.update d δ (hp' a, w)).2.2) := by
    intro P' hP hP'
    refine ⟨h2, fun b hb => ?_⟩
    by_cases hba : b = a
    · subst hba
      simp only [Function.update_self]
      exact ⟨h3, hP⟩
    · simp only [Function.update_of_ne hba]
      exact ⟨(h b hb).1, fun hb' => (h b hb).2 (hP' b hba hb')⟩
  unfold updateArm
  dsimp only
  rcases hu : (ops.update d δ (hp a, w)).1 with e | r
  · rw [hu] at h1
    exact Or.inr ⟨e, _, _, rfl, by rw [← h1]; rfl, key _ (fun h => h.elim) (fun _ _ h => h.elim)⟩
  · rw [hu] at h1
    refine Or.inl ⟨(), _, _, rfl, by rw [← h1]; rfl, key _ (fun _ => h4 r hu) ?_⟩
    rintro b hb (h | h)
    · exact absurd h hb
    · exact h

omit hA in
theorem rel_generate (arms : List I) (P : I → Prop) (env : BanditEnv W β) (n : Nat) :
    Py.Rel (Agree Core Full arms P) (generate (I := I) (S := S) env n) (generate env n) (fun _ => Agree Core Full arms P) (AgreeC Core Full arms) := by
  rintro ⟨hp, w⟩ ⟨hp', w'⟩ ⟨hw, h⟩
  simp only at hw
  subst hw
  unfold generate
  dsimp only
  rcases env.generate n w with ⟨e | d, w'⟩
  · exact Or.inr ⟨e, _, _, rfl, rfl, Agree.weak (P := P) ⟨rfl, h⟩⟩
  · exact Or.inl ⟨d, _, _, rfl, rfl, rfl, h⟩

theorem rel_nextSlice (arms : List I) (P : I → Prop) (all : ExpData β) (u : Nat) (a : I) (ha : a ∈ arms) :
    Py.Rel (Agree Core Full arms P) (nextSlice ops all u a) (nextSlice ops all u a) (fun _ => Agree Core Full arms P) (AgreeC Core Full arms) := by
  rintro ⟨hp, w⟩ ⟨hp', w'⟩ ⟨hw, h⟩
  simp only at hw
  subst hw
  unfold nextSlice
  dsimp only
  rw [hA.numUnits _ _ (h a ha).1]
  rcases all.slice (ops.numUnits (hp' a)) (ops.numUnits (hp' a) + u) with e | d
  · exact Or.inr ⟨e, _, _, rfl, rfl, Agree.weak (P := P) ⟨rfl, h⟩⟩
  · exact Or.inl ⟨d, _, _, rfl, rfl, rfl, h⟩

theorem rel_samplesFor (arms : List I) (P : I → Prop) (env : BanditEnv W β) (all : Option (ExpData β)) (u : Nat) (a : I) (ha : a ∈ arms) :
    Py.Rel (Agree Core Full arms P) (samplesFor env ops all u a) (samplesFor env ops all u a) (fun _ => Agree Core Full arms P) (AgreeC Core Full arms) := by
  cases all with
  | none => exact rel_generate arms P env u
  | some d => exact rel_nextSlice hA arms P d u a ha

theorem rel_pull (arms : List I) (P : I → Prop) (env : BanditEnv W β) (cfg : BanditCfg I α) (all : Option (ExpData β)) (a : I) (ha : a ∈ arms) (x : Unit) :
    Py.Rel (Agree Core Full arms P) (pull env ops cfg all a x) (pull env ops cfg all a x)
      (fun _ => Agree Core Full arms fun b => b = a ∨ P b) (AgreeC Core Full arms) :=
  Py.Rel.bind (rel_samplesFor hA arms P env all _ a ha) fun d => rel_updateArm hA arms P a ha d _

theorem rel_record (arms : List I) (P : I → Prop) (k : I → Nat) (a : I) (ha : a ∈ arms) (hP : P a) (h : Hist I α) :
    Py.Rel (Agree Core Full arms P) (record ops k a h) (record ops k a h) (fun _ => Agree Core Full arms P) (AgreeC Core Full arms) := by
  rintro ⟨hp, w⟩ ⟨hp', w'⟩ ⟨hw, hh⟩
  simp only at hw
  subst hw
  have hf := (hh a ha).2 hP
  have heq : (record ops k a h (hp, w)).1 = (record ops k a h (hp', w)).1 := by
    unfold record
    dsimp only
    rw [show ops.cost (hp a) = ops.cost (hp' a) from hA.cost _ _ (hh a ha).1, show ops.ci (hp a) = ops.ci (hp' a) from hA.ci _ _ hf,
      show ops.varEst (hp a) = ops.varEst (hp' a) from hA.varEst _ _ hf]
  have e1 : record ops k a h (hp, w) = ((record ops k a h (hp, w)).1, hp, w) := rfl
  have e2 : record ops k a h (hp', w) = ((record ops k a h (hp, w)).1, hp', w) := by rw [heq]; rfl
  rw [e1, e2]
  rcases (record ops k a h (hp, w)).1 with e | r
  · exact Or.inr ⟨e, _, _, rfl, rfl, Agree.weak (P := P) ⟨rfl, hh⟩⟩
  · exact Or.inl ⟨r, _, _, rfl, rfl, rfl, hh⟩

theorem rel_updateRecord (arms : List I) (P : I → Prop) (cfg : BanditCfg I α) (d : ExpData β) (a : I) (ha : a ∈ arms) (h : Hist I α) :
    Py.Rel (Agree Core Full arms P) (updateRecord ops cfg d a h) (updateRecord ops cfg d a h)
      (fun _ => Agree Core Full arms fun b => b = a ∨ P b) (AgreeC Core Full arms) :=
  Py.Rel.bind (rel_updateArm hA arms P a ha d _) fun _ => rel_record hA arms _ _ a ha (Or.inl rfl) h

/-- a loop that updates arms -/
theorem rel_forEach {H : Type} (arms : List I) (P : I → Prop) (f : I → H → Py ((I → S) × W) H) (l : List I) (hl : ∀ a ∈ l, a ∈ arms)
    (hf : ∀ Q : I → Prop, ∀ a ∈ arms, ∀ h, Py.Rel (Agree Core Full arms Q) (f a h) (f a h) (fun _ => Agree Core Full arms fun b => b = a ∨ Q b) (AgreeC Core Full arms))
    (h : H) : Py.Rel (Agree Core Full arms P) (Py.forEach f l h) (Py.forEach f l h) (fun _ => Agree Core Full arms fun b => b ∈ l ∨ P b) (AgreeC Core Full arms) := by
  refine (Py.Rel.forEach (fun pre => Agree Core Full arms fun b => b ∈ pre ∨ P b) l ?_ h).weaken ?_ (fun _ _ _ h => h) (fun _ _ h => h)
  · intro pre a post h' hl'
    refine (hf _ a (hl a (by rw [hl']; simp)) h').weaken (fun _ _ h => h) ?_ (fun _ _ h => h)
    intro _ s t hst
    refine hst.mono fun b _ hb => ?_
    rcases hb with hb | hb
    · rcases List.mem_append.1 hb with hb | hb
      · exact Or.inr (Or.inl hb)
      · exact Or.inl (List.mem_singleton.1 hb)
    · exact Or.inr (Or.inr hb)
  · intro s t hst
    exact hst.mono fun b _ hb => hb.resolve_left (by simp)

theorem rel_forEachRecord (arms : List I) (P : I → Prop) (k : I → Nat) (l : List I) (hl : ∀ a ∈ l, a ∈ arms ∧ P a) (h : Hist I α) :
    Py.Rel (Agree Core Full arms P) (Py.forEach (record ops k) l h) (Py.forEach (record ops k) l h) (fun _ => Agree Core Full arms P) (AgreeC Core Full arms) :=
  Py.Rel.forEach (fun _ => Agree Core Full arms P) l
    (fun pre a post h' hl' => rel_record hA arms P k a (hl a (by rw [hl']; simp)).1 (hl a (by rw [hl']; simp)).2 h') h

theorem mapM_congr' {γ δ : Type} (f g : γ → Except PyErr δ) (l : List γ) (h : ∀ a ∈ l, f a = g a) : l.mapM f = l.mapM g := by
  induction l with
  | nil => rfl
  | cons a l ih =>
    rw [List.mapM_cons, List.mapM_cons, h a (by simp), ih fun b hb => h b (by simp [hb])]

theorem collectBounds_agree {arms : List I} {P : I → Prop} {s t : (I → S) × W} (h : Agree Core Full arms P s t) (hP : ∀ a ∈ arms, P a) :
    collectBounds ops arms s.1 = collectBounds ops arms t.1 := by
  have hc : ∀ a ∈ arms, ops.cost (s.1 a) = ops.cost (t.1 a) := fun a ha => hA.cost _ _ (h.2 a ha).1
  have hi : ∀ a ∈ arms, ops.ci (s.1 a) = ops.ci (t.1 a) := fun a ha => hA.ci _ _ ((h.2 a ha).2 (hP a ha))
  have hv : ∀ a ∈ arms, ops.varEst (s.1 a) = ops.varEst (t.1 a) := fun a ha => hA.varEst _ _ ((h.2 a ha).2 (hP a ha))
  unfold collectBounds
  rw [mapM_congr' hA (fun a => costTimes (ops.cost (s.1 a)) (ops.ci (s.1 a)).2) (fun a => costTimes (ops.cost (t.1 a)) (ops.ci (t.1 a)).2) arms
      (fun a ha => by rw [hc a ha, hi a ha]),
    mapM_congr' hA (fun a => costTimes (ops.cost (s.1 a)) (ops.ci (s.1 a)).1) (fun a => costTimes (ops.cost (t.1 a)) (ops.ci (t.1 a)).1) arms
      (fun a ha => by rw [hc a ha, hi a ha]),
    mapM_congr' hA (fun a => costTimes (ops.cost (s.1 a)) (ops.varEst (s.1 a))) (fun a => costTimes (ops.cost (t.1 a)) (ops.varEst (t.1 a))) arms
      (fun a ha => by rw [hc a ha, hv a ha])]

theorem checkEnd_agree {cfg : BanditCfg I α} {P : I → Prop} {s t : (I → S) × W} (h : Agree Core Full cfg.arms P s t) (hP : ∀ a ∈ cfg.arms, P a) :
    checkEnd ops cfg s.1 = checkEnd ops cfg t.1 := by
  unfold checkEnd
  rw [collectBounds_agree hA h hP]

theorem lowestVarArms_agree {cfg : BanditCfg I α} {P : I → Prop} {s t : (I → S) × W} (h : Agree Core Full cfg.arms P s t) (hP : ∀ a ∈ cfg.arms, P a) :
    lowestVarArms ops cfg s.1 = lowestVarArms ops cfg t.1 := by
  unfold lowestVarArms
  rw [collectBounds_agree hA h hP]

/-- all arms of the list have the same estimates -/
abbrev AgreeF (Core Full : S → S → Prop) (arms : List I) (s t : (I → S) × W) : Prop := Agree Core Full arms (fun _ => True) s t

theorem rel_uniformRun (env : BanditEnv W β) (cfg : BanditCfg I α) (all : Option (ExpData β)) (fuel : Nat) :
    Py.Rel (AgreeC Core Full cfg.arms) (uniformRun env ops cfg all fuel) (uniformRun env ops cfg all fuel)
      (fun _ => AgreeC Core Full cfg.arms) (AgreeC Core Full cfg.arms) := by
  unfold uniformRun
  refine Py.Rel.loop (fun _ => AgreeC Core Full cfg.arms) _ (fun _ _ _ h => h) (fun h => ?_) fuel _
  unfold uniformRound
  refine Py.Rel.bind (Q := fun _ => AgreeC Core Full cfg.arms) ?_ fun d => Py.Rel.bind (Q := fun _ => AgreeF Core Full cfg.arms) ?_ fun h' =>
    Py.Rel.bind (Q := fun _ => AgreeF Core Full cfg.arms) ?_ fun over => Py.Rel.get_bind fun s t hst => ?_
  · unfold uniformSamples
    cases all with
    | none => exact rel_generate cfg.arms _ env _
    | some x =>
      dsimp only
      cases hl : cfg.arms with
      | nil => exact Py.Rel.raise fun _ _ h => h
      | cons a l => exact rel_nextSlice hA _ _ x _ a (by simp)
  · refine (rel_forEach hA cfg.arms _ _ cfg.arms (fun _ h => h) (fun Q a ha h => rel_updateRecord hA cfg.arms Q cfg d a ha h) h).weaken
      (fun _ _ h => h) (fun _ s t h => h.mono fun b hb _ => Or.inl hb) (fun _ _ h => h)
  · exact Py.Rel.lift (fun _ _ _ => rfl) (fun _ _ _ h _ => h) (fun _ _ h => h.weak)
  · obtain ⟨hp, w⟩ := s
    obtain ⟨hp', w'⟩ := t
    dsimp only
    split
    · refine Py.Rel.bind (Q := fun _ => AgreeC Core Full cfg.arms) (Py.Rel.lift (fun _ _ _ => lowestVarArms_agree hA hst fun _ _ => trivial) ?_ ?_) fun _ =>
        Py.Rel.pure fun _ _ h => h
      · rintro _ _ _ ⟨rfl, rfl⟩ _; exact hst.weak
      · rintro _ _ ⟨rfl, rfl⟩; exact hst.weak
    · refine Py.Rel.bind (Q := fun _ => AgreeC Core Full cfg.arms) (Py.Rel.lift (fun _ _ _ => checkEnd_agree hA hst fun _ _ => trivial) ?_ ?_) fun r => ?_
      · rintro _ _ _ ⟨rfl, rfl⟩ _; exact hst.weak
      · rintro _ _ ⟨rfl, rfl⟩; exact hst.weak
      · split <;> exact Py.Rel.pure fun _ _ h => h

omit hA in
theorem rel_chooseTwo (arms : List I) (P : I → Prop) (env : BanditEnv W β) (l : List I) :
    Py.Rel (Agree Core Full arms P) (chooseTwo env l) (chooseTwo env l) (fun _ => Agree Core Full arms P) (AgreeC Core Full arms) := by
  rintro ⟨hp, w⟩ ⟨hp', w'⟩ ⟨hw, h⟩
  simp only at hw
  subst hw
  unfold chooseTwo
  dsimp only
  split
  · exact Or.inl ⟨_, _, _, rfl, rfl, rfl, h⟩
  · exact Or.inr ⟨_, _, _, rfl, rfl, Agree.weak (P := P) ⟨rfl, h⟩⟩

omit hA in
theorem rel_chooseMasked (arms : List I) (P : I → Prop) (env : BanditEnv W β) (l : List I) (mask : List Bool) :
    Py.Rel (Agree Core Full arms P) (chooseMasked env l mask) (chooseMasked env l mask) (fun _ => Agree Core Full arms P) (AgreeC Core Full arms) := by
  rintro ⟨hp, w⟩ ⟨hp', w'⟩ ⟨hw, h⟩
  simp only at hw
  subst hw
  unfold chooseMasked
  dsimp only
  split
  · exact Or.inl ⟨_, _, _, rfl, rfl, rfl, h⟩
  · exact Or.inr ⟨_, _, _, rfl, rfl, Agree.weak (P := P) ⟨rfl, h⟩⟩

omit hA in
theorem rel_and {A : Type} {R : (I → S) × W → (I → S) × W → Prop} {m : Py ((I → S) × W) A} {Q : A → (I → S) × W → (I → S) × W → Prop}
    {E : (I → S) × W → (I → S) × W → Prop} {Z : A → Prop} (h : Py.Rel R m m Q E) (hz : ∀ s a s', m s = (.ok a, s') → Z a) :
    Py.Rel R m m (fun a s t => Q a s t ∧ Z a) E := by
  intro s t hst
  rcases h s t hst with ⟨a, s', t', h1, h2, h3⟩ | h
  · exact Or.inl ⟨a, s', t', h1, h2, h3, hz s a s' h1⟩
  · exact Or.inr h

theorem rel_selectArms (env : BanditEnv W β) (cfg : BanditCfg I α) :
    Py.Rel (AgreeF Core Full cfg.arms) (selectArms env ops cfg) (selectArms env ops cfg)
      (fun l s t => AgreeF Core Full cfg.arms s t ∧ ∀ a ∈ l, a ∈ cfg.arms) (AgreeC Core Full cfg.arms) := by
  refine rel_and ?_ fun s l s' h => (selectArms_ok h).2.2
  unfold selectArms
  refine Py.Rel.get_bind fun s t hst => ?_
  obtain ⟨hp, w⟩ := s
  obtain ⟨hp', w'⟩ := t
  dsimp only
  have hcb := collectBounds_agree hA hst fun _ _ => trivial
  dsimp only at hcb
  rw [hcb]
  refine Py.Rel.weaken (R := AgreeF Core Full cfg.arms) ?_ (by rintro _ _ ⟨rfl, rfl⟩; exact hst) (fun _ _ _ h => h) (fun _ _ h => h)
  have hl : ∀ {A : Type} (x : Except PyErr A), Py.Rel (AgreeF Core Full cfg.arms) (Py.lift x) (Py.lift x) (fun _ => AgreeF (W := W) Core Full cfg.arms) (AgreeC Core Full cfg.arms) :=
    fun x => Py.Rel.lift (fun _ _ _ => rfl) (fun _ _ _ h _ => h) (fun _ _ h => h.weak)
  refine Py.Rel.bind (hl _) fun b => ?_
  refine Py.Rel.bind (hl _) fun v => ?_
  split
  · exact rel_chooseTwo _ _ env _
  · exact Py.Rel.bind (hl _) fun _ => Py.Rel.bind (hl _) fun _ => Py.Rel.bind (rel_chooseMasked _ _ _ _ _) fun _ =>
      Py.Rel.bind (rel_chooseMasked _ _ _ _ _) fun _ => Py.Rel.pure fun _ _ h => h

theorem rel_lucbRun (env : BanditEnv W β) (cfg : BanditCfg I α) (all : Option (ExpData β)) (fuel : Nat) :
    Py.Rel (AgreeC Core Full cfg.arms) (lucbRun env ops cfg all fuel) (lucbRun env ops cfg all fuel)
      (fun _ => AgreeC Core Full cfg.arms) (AgreeC Core Full cfg.arms) := by
  unfold lucbRun
  refine Py.Rel.bind (Q := fun _ => AgreeC Core Full cfg.arms) ?_ fun d => Py.Rel.bind (Q := fun _ => AgreeF Core Full cfg.arms) ?_ fun h' => ?_
  · unfold lucbFirst
    cases all with
    | none => exact rel_generate cfg.arms _ env _
    | some x => exact Py.Rel.lift (fun _ _ _ => rfl) (fun _ _ _ h _ => h) (fun _ _ h => h)
  · refine (rel_forEach hA cfg.arms _ _ cfg.arms (fun _ h => h) (fun Q a ha h => rel_updateRecord hA cfg.arms Q cfg d a ha h) _).weaken
      (fun _ _ h => h) (fun _ s t h => h.mono fun b hb _ => Or.inl hb) (fun _ _ h => h)
  · refine Py.Rel.loop (fun _ => AgreeF Core Full cfg.arms) _ (fun _ _ _ h => h.weak) (fun h => ?_) fuel _
    unfold lucbRound
    refine Py.Rel.bind (Q := fun _ => AgreeF Core Full cfg.arms) (Py.Rel.lift (fun _ _ _ => rfl) (fun _ _ _ h _ => h) (fun _ _ h => h.weak)) fun over => ?_
    split
    · refine Py.Rel.get_bind fun s t hst => ?_
      refine Py.Rel.bind (Q := fun _ => AgreeC Core Full cfg.arms) (Py.Rel.lift (fun _ _ _ => lowestVarArms_agree hA hst fun _ _ => trivial) ?_ ?_) fun _ =>
        Py.Rel.pure fun _ _ h => h
      · rintro _ _ _ ⟨rfl, rfl⟩ _; exact hst.weak
      · rintro _ _ ⟨rfl, rfl⟩; exact hst.weak
    · refine Py.Rel.bind (rel_selectArms hA env cfg) fun chosen => ?_
      intro s t hst
      obtain ⟨hst, hch⟩ := hst
      revert s t
      suffices Py.Rel (AgreeF Core Full cfg.arms) _ _ _ _ from fun s t h => this s t h
      refine Py.Rel.bind (Q := fun _ => AgreeF Core Full cfg.arms)
        ((rel_forEach hA cfg.arms _ _ chosen hch (fun Q a ha h => rel_pull hA cfg.arms Q env cfg all a ha h) ()).weaken
          (fun _ _ h => h) (fun _ s t h => h.mono fun _ _ _ => Or.inr trivial) (fun _ _ h => h)) fun _ =>
        Py.Rel.bind (Q := fun _ => AgreeF Core Full cfg.arms) (rel_forEachRecord hA cfg.arms _ _ cfg.arms (fun _ h => ⟨h, trivial⟩) _) fun h' =>
        Py.Rel.get_bind fun s t hst => ?_
      refine Py.Rel.bind (Q := fun _ => AgreeF Core Full cfg.arms) (Py.Rel.lift (fun _ _ _ => checkEnd_agree hA hst fun _ _ => trivial) ?_ ?_) fun r => ?_
      · rintro _ _ _ ⟨rfl, rfl⟩ _; exact hst
      · rintro _ _ ⟨rfl, rfl⟩; exact hst.weak
      · obtain ⟨e, b⟩ := r
        dsimp only
        split
        · exact Py.Rel.pure fun _ _ h => h.weak
        · exact Py.Rel.pure fun _ _ h => h

omit hA in
/-- without a variance estimate `collect_bounds` raises `TypeError` -/
theorem collectBounds_noVar {arms : List I} {heap : I → S} (hne : arms ≠ []) (h : ∀ a ∈ arms, ops.varEst (heap a) = none) :
    collectBounds ops arms heap = .error .typeError := by
  have key : ∀ (f : I → Except PyErr (Fl α)), (∀ a e, f a = .error e → e = .typeError) → ∀ (l : List I) e, l.mapM f = .error e → e = .typeError := by
    intro f hf l
    induction l with
    | nil => intro e he; cases he
    | cons a l ih =>
      intro e he
      rw [List.mapM_cons] at he
      rcases ha : f a with e' | x
      · rw [ha] at he
        simp only [bind, Except.bind, Except.error.injEq] at he
        rw [← he]
        exact hf a _ ha
      · rcases hl : l.mapM f with e' | xs
        · rw [ha, hl] at he
          simp only [bind, Except.bind, Except.error.injEq] at he
          rw [← he]
          exact ih _ hl
        · rw [ha, hl] at he
          cases he
  have hct : ∀ c o e, costTimes (α := α) c o = .error e → e = .typeError := by
    intro c o e he
    cases o with
    | none => simp only [costTimes, Except.error.injEq] at he; exact he.symm
    | some x => cases he
  unfold collectBounds
  rcases h1 : arms.mapM fun a => costTimes (ops.cost (heap a)) (ops.ci (heap a)).2 with e | us
  · simp only [bind, Except.bind, key _ (fun a e he => hct _ _ _ he) _ _ h1]
  rcases h2 : arms.mapM fun a => costTimes (ops.cost (heap a)) (ops.ci (heap a)).1 with e | ls
  · simp only [bind, Except.bind, key _ (fun a e he => hct _ _ _ he) _ _ h2]
  rcases h3 : arms.mapM fun a => costTimes (ops.cost (heap a)) (ops.varEst (heap a)) with e | vs
  · simp only [bind, Except.bind, key _ (fun a e he => hct _ _ _ he) _ _ h3]
  · exfalso
    cases arms with
    | nil => exact hne rfl
    | cons a l =>
      rw [List.mapM_cons, h a (by simp)] at h3
      cases h3

theorem rel_seRun (env : BanditEnv W β) (cfg : BanditCfg I α) (all : Option (ExpData β)) (fuel : Nat) :
    Py.Rel (fun s t => AgreeC Core Full cfg.arms s t ∧ ∀ a ∈ cfg.arms, ops.varEst (s.1 a) = none ∧ ops.varEst (t.1 a) = none)
      (seRun env ops cfg all fuel) (seRun env ops cfg all fuel)
      (fun _ => AgreeC Core Full cfg.arms) (AgreeC Core Full cfg.arms) := by
  unfold seRun
  refine (Py.Rel.loop (fun st s t => (∀ a ∈ st.2, a ∈ cfg.arms) ∧ (AgreeF Core Full cfg.arms s t ∨
    (st.2 = cfg.arms ∧ AgreeC Core Full cfg.arms s t ∧ ∀ a ∈ cfg.arms, ops.varEst (s.1 a) = none ∧ ops.varEst (t.1 a) = none)))
    (AgreeC Core Full cfg.arms) ?_ (fun st => ?_) fuel _).weaken ?_ (fun _ _ _ h => h) (fun _ _ h => h)
  · rintro st s t ⟨-, h | ⟨-, h, -⟩⟩
    · exact h.weak
    · exact h
  · unfold seRound
    split
    · refine Py.Rel.pure ?_
      rintro s t ⟨-, h | ⟨-, h, -⟩⟩
      · exact h.weak
      · exact h
    · rename_i hlen
      refine Py.Rel.bind (Py.Rel.lift (Q := fun _ s t => (∀ a ∈ st.2, a ∈ cfg.arms) ∧ (AgreeF Core Full cfg.arms s t ∨
        (st.2 = cfg.arms ∧ AgreeC Core Full cfg.arms s t ∧ ∀ a ∈ cfg.arms, ops.varEst (s.1 a) = none ∧ ops.varEst (t.1 a) = none)))
        (fun _ _ _ => rfl) (fun _ _ _ h _ => h) ?_) fun over => ?_
      · rintro s t ⟨-, h | ⟨-, h, -⟩⟩
        · exact h.weak
        · exact h
      split
      · refine Py.Rel.get_bind fun s t hst => ?_
        have hw : AgreeC Core Full cfg.arms s t := by
          rcases hst with ⟨-, h | ⟨-, h, -⟩⟩
          · exact h.weak
          · exact h
        have heq : lowestVarArms ops cfg s.1 = lowestVarArms ops cfg t.1 := by
          rcases hst with ⟨-, h | ⟨h1, h, h2⟩⟩
          · exact lowestVarArms_agree hA h fun _ _ => trivial
          · have hne : cfg.arms ≠ [] := by
              intro h0; rw [h1, h0] at hlen; exact hlen (by simp)
            unfold lowestVarArms
            rw [collectBounds_noVar hne fun a ha => (h2 a ha).1, collectBounds_noVar hne fun a ha => (h2 a ha).2]
        refine Py.Rel.bind (Q := fun _ => AgreeC Core Full cfg.arms) (Py.Rel.lift (fun _ _ _ => heq) ?_ ?_) fun _ =>
          Py.Rel.pure fun _ _ h => h
        · rintro _ _ _ ⟨rfl, rfl⟩ _; exact hw
        · rintro _ _ ⟨rfl, rfl⟩; exact hw
      · refine Py.Rel.bind (Q := fun _ s t => (∀ a ∈ st.2, a ∈ cfg.arms) ∧ AgreeF Core Full cfg.arms s t) ?_ fun _ => ?_
        · intro s t hst
          obtain ⟨hmem, hst⟩ := hst
          rcases hst with h | ⟨h1, h, -⟩
          · exact ((rel_forEach hA cfg.arms _ _ st.2 hmem (fun Q a ha h => rel_pull hA cfg.arms Q env cfg all a ha h) ()).weaken
              (fun _ _ h => h) (fun _ s t h => ⟨hmem, h.mono fun _ _ _ => Or.inr trivial⟩) (fun _ _ h => h)) s t h
          · exact ((rel_forEach hA cfg.arms _ _ st.2 hmem (fun Q a ha h => rel_pull hA cfg.arms Q env cfg all a ha h) ()).weaken
              (fun _ _ h => h) (fun _ s t h => ⟨hmem, h.mono fun b hb _ => Or.inl (by rw [h1]; exact hb)⟩) (fun _ _ h => h)) s t h
        · intro s t hst
          obtain ⟨hmem, hst⟩ := hst
          revert s t
          suffices Py.Rel (AgreeF Core Full cfg.arms) _ _ _ _ from fun s t h => this s t h
          refine Py.Rel.bind (Q := fun _ => AgreeF Core Full cfg.arms) (rel_forEachRecord hA cfg.arms _ _ cfg.arms (fun _ h => ⟨h, trivial⟩) _) fun h' => ?_
          refine Py.Rel.bind (Q := fun l s t => AgreeF Core Full cfg.arms s t ∧ ∀ a ∈ l, a ∈ st.2) (Py.Rel.lift (fun _ _ _ => rfl) ?_ (fun _ _ h => h.weak)) fun r => ?_
          · intro l s t hst he
            refine ⟨hst, fun a ha => ?_⟩
            unfold eliminate at he
            simp only [bind, Except.bind] at he
            split at he
            · cases he
            · split at he
              · cases he
              · split at he
                · cases he
                · split at he
                  · cases he
                  · split at he
                    · cases he
                    · cases he
                      exact (ExpData.filterMask_sublist _ _).subset ha
          · split
            · exact Py.Rel.pure fun _ _ h => h.1.weak
            · exact Py.Rel.pure fun _ _ h => ⟨fun a ha => hmem a (h.2 a ha), Or.inl h.1⟩
  · rintro s t ⟨h1, h2⟩
    exact ⟨fun _ h => h, Or.inr ⟨rfl, h1, h2⟩⟩

end Bandit
end Verif
