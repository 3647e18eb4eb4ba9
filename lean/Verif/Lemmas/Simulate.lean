import Verif.Lemmas.EndToEnd
import Verif.Model.PaperBandits

/-!
# Simulation: runs in different worlds, arms with different representations of their nuisance parameter
-/

set_option linter.unusedSectionVars false
set_option linter.unusedSimpArgs false

namespace Verif

/-- in related states the programs give the same answer and reach related states -/
def Sim {σ τ A : Type} (R : σ → τ → Prop) (p : Py σ A) (q : Py τ A) : Prop := ∀ s t, R s t → (q t).1 = (p s).1 ∧ R (p s).2 (q t).2

namespace Sim
variable {σ τ A B : Type} {R : σ → τ → Prop}

theorem pure (a : A) : Sim R (Pure.pure a : Py σ A) (Pure.pure a : Py τ A) := fun _ _ h => ⟨rfl, h⟩

theorem raise (e : PyErr) : Sim R (Py.raise e : Py σ A) (Py.raise e : Py τ A) := fun _ _ h => ⟨rfl, h⟩

theorem lift (x : Except PyErr A) : Sim R (Py.lift x : Py σ A) (Py.lift x : Py τ A) := fun _ _ h => ⟨rfl, h⟩

theorem modify {f : σ → σ} {g : τ → τ} (h : ∀ s t, R s t → R (f s) (g t)) : Sim R (Py.modify f) (Py.modify g) := fun s t hst => ⟨rfl, h s t hst⟩

theorem bind {p : Py σ A} {q : Py τ A} {f : A → Py σ B} {g : A → Py τ B} (h : Sim R p q) (hf : ∀ a, Sim R (f a) (g a)) : Sim R (p >>= f) (q >>= g) := by
  intro s t hst
  obtain ⟨h1, h2⟩ := h s t hst
  rw [Py.bind_apply, Py.bind_apply]
  rcases e1 : p s with ⟨_ | a, s'⟩ <;> rcases e2 : q t with ⟨_ | b, t'⟩ <;> rw [e1, e2] at h1 h2
  · obtain rfl := Except.error.inj h1
    exact ⟨rfl, h2⟩
  · cases h1
  · cases h1
  · obtain rfl := Except.ok.inj h1
    exact hf _ s' t' h2

theorem get {f : σ → Py σ B} {g : τ → Py τ B} (h : ∀ s t, R s t → Sim R (f s) (g t)) : Sim R (Py.get >>= f) (Py.get >>= g) := fun s t hst => h s t hst s t hst

theorem ite {c : Prop} [Decidable c] {p p' : Py σ A} {q q' : Py τ A} (h : Sim R p q) (h' : Sim R p' q') : Sim R (if c then p else p') (if c then q else q') := by
  split
  · exact h
  · exact h'

theorem forEach {I H : Type} {f : I → H → Py σ H} {g : I → H → Py τ H} (h : ∀ a x, Sim R (f a x) (g a x)) : ∀ (l : List I) (x : H), Sim R (Py.forEach f l x) (Py.forEach g l x)
  | [], x => pure x
  | a :: l, x => bind (h a x) fun y => forEach h l y

theorem loop {H : Type} {f : H → Py σ (H ⊕ B)} {g : H → Py τ (H ⊕ B)} (h : ∀ x, Sim R (f x) (g x)) : ∀ (n : ℕ) (x : H), Sim R (Py.loop f n x) (Py.loop g n x)
  | 0, _ => pure none
  | n + 1, x => bind (h x) fun
    | .inl y => loop h n y
    | .inr b => pure (some b)

end Sim

/-! ## Updates -/

namespace Arm
variable {E F β α W W' : Type} [Field α] [LinearOrder α]

/-- the nuisance parameter `emb e` behaves as `e` -/
structure EtaHom (emb : E → F) (ops : EtaOps E β α) (ops' : EtaOps F β α) : Prop where
  fit : ∀ e d, ops'.fit (emb e) d = ((ops.fit e d).1, emb (ops.fit e d).2)
  hasEnough : ∀ e, ops'.hasEnough (emb e) = ops.hasEnough e
  score : ∀ e d, ops'.score (emb e) d = ((ops.score e d).1, emb (ops.score e d).2)
  csWidth : ∀ e, ops'.csWidth (emb e) = ops.csWidth e

/-- the arm with the other representation of its nuisance parameter -/
def mapEta (emb : E → F) (s : ArmState E β α) : ArmState F β α := ⟨s.ci, emb s.eta, s.ate, s.varEst, s.numPulled, s.split, s.delta⟩

/-- related states of an arm and its world -/
def ArmRel (emb : E → F) (Q : W → W' → Prop) (p : ArmState E β α × W) (q : ArmState F β α × W') : Prop := q.1 = mapEta emb p.1 ∧ Q p.2 q.2

variable {emb : E → F} {ops : EtaOps E β α} {ops' : EtaOps F β α} {Q : W → W' → Prop} {rng : Rng W α} {rng' : Rng W' α}

theorem sim_fold (i : ℕ) : Sim (ArmRel (β := β) (α := α) emb Q) (fold i) (fold i) := by
  rintro ⟨⟨ci, eta, ate, v, np, split, dl⟩, w⟩ ⟨t, w'⟩ ⟨h1, h2⟩
  obtain rfl : t = _ := h1
  rcases split with _ | fs
  · exact ⟨rfl, rfl, h2⟩
  · unfold fold
    simp only [mapEta]
    rcases fs[i]? with _ | d <;> exact ⟨rfl, rfl, h2⟩

theorem sim_etaFit (h : EtaHom emb ops ops') (d : ExpData β) : Sim (ArmRel emb Q) (etaFit ops d) (etaFit ops' d) := by
  rintro ⟨s, w⟩ ⟨t, w'⟩ ⟨h1, h2⟩
  obtain rfl : t = _ := h1
  unfold etaFit
  simp only [mapEta, h.fit]
  exact ⟨trivial, rfl, h2⟩

theorem sim_etaScore (h : EtaHom emb ops ops') (d : ExpData β) : Sim (ArmRel emb Q) (etaScore ops d) (etaScore ops' d) := by
  rintro ⟨s, w⟩ ⟨t, w'⟩ ⟨h1, h2⟩
  obtain rfl : t = _ := h1
  unfold etaScore
  simp only [mapEta, h.score]
  exact ⟨trivial, rfl, h2⟩

theorem sim_setCi (lo hi : Fl α) : Sim (ArmRel (β := β) emb Q) (setCi lo hi) (setCi lo hi) := by
  refine .bind (.modify ?_) fun _ => .pure _
  rintro ⟨s, w⟩ ⟨t, w'⟩ ⟨h1, h2⟩
  obtain rfl : t = _ := h1
  exact ⟨rfl, h2⟩

theorem sim_ssEstimate (h : EtaHom emb ops ops') (cfg : SSConfig β α) (lib : Libm α) (delta : Fl α) :
    Sim (ArmRel emb Q) (ssEstimate cfg ops lib delta) (ssEstimate cfg ops' lib delta) := by
  refine .bind (sim_fold 0) fun f0 => .bind (sim_etaFit h f0) fun _ => .get ?_
  rintro ⟨s, w⟩ ⟨t, w'⟩ ⟨h1, -⟩
  obtain rfl : t = _ := h1
  simp only [mapEta, h.hasEnough]
  refine .bind (.lift _) fun enough => .ite ?_ ?_
  · refine .bind (.modify ?_) fun _ => sim_setCi _ _
    rintro ⟨s, w⟩ ⟨t, w'⟩ ⟨h1, h2⟩
    obtain rfl : t = _ := h1
    exact ⟨rfl, h2⟩
  · refine .bind (sim_fold 1) fun f1 => .bind (sim_etaScore h f1) fun scores => .bind (.modify ?_) fun _ => .bind (sim_etaScore h f1) fun scores2 => .bind (.modify ?_) fun _ => .ite (.raise _) ?_
    · rintro ⟨s, w⟩ ⟨t, w'⟩ ⟨h1, h2⟩
      obtain rfl : t = _ := h1
      exact ⟨rfl, h2⟩
    · rintro ⟨s, w⟩ ⟨t, w'⟩ ⟨h1, h2⟩
      obtain rfl : t = _ := h1
      exact ⟨rfl, h2⟩
    · rcases cfg.alg with _ | _ | _ | _
      · exact sim_setCi _ _
      · refine .bind (sim_etaScore h f1) fun scores3 => .get ?_
        rintro ⟨s, w⟩ ⟨t, w'⟩ ⟨h1, -⟩
        obtain rfl : t = _ := h1
        exact sim_setCi _ _
      · refine .ite (.raise _) (.get ?_)
        rintro ⟨s, w⟩ ⟨t, w'⟩ ⟨h1, -⟩
        obtain rfl : t = _ := h1
        simp only [mapEta, h.csWidth]
        refine .bind (.lift _) fun ew => .ite (sim_setCi _ _) ?_
        rcases ew with _ | ew
        · exact .raise _
        · exact sim_setCi _ _
      · exact .raise _

theorem sim_appendFolds (new : List (ExpData β)) : Sim (ArmRel (α := α) emb Q) (appendFolds new) (appendFolds new) := by
  rintro ⟨⟨ci, eta, ate, v, np, split, dl⟩, w⟩ ⟨t, w'⟩ ⟨h1, h2⟩
  obtain rfl : t = _ := h1
  unfold appendFolds
  simp only [mapEta]
  split
  · split <;> exact ⟨rfl, rfl, h2⟩
  · exact ⟨rfl, rfl, h2⟩

/-- updates in related worlds of arms with related nuisance parameters -/
theorem sim_ssUpdate (h : EtaHom emb ops ops') (hr : ∀ n w w', Q w w' → (rng'.perm n w').1 = (rng.perm n w).1 ∧ Q (rng.perm n w).2 (rng'.perm n w').2) (cfg : SSConfig β α)
    (lib : Libm α) (d : ExpData β) (delta : Fl α) : Sim (ArmRel emb Q) (ssUpdate cfg ops lib rng d delta) (ssUpdate cfg ops' lib rng' d delta) := by
  refine .ite (.raise _) (.bind (.modify ?_) fun _ => .bind (.bind ?_ fun new => .get ?_) fun _ => sim_ssEstimate h cfg lib delta)
  · rintro ⟨s, w⟩ ⟨t, w'⟩ ⟨h1, h2⟩
    obtain rfl : t = _ := h1
    exact ⟨rfl, h2⟩
  · rintro ⟨s, w⟩ ⟨t, w'⟩ ⟨h1, h2⟩
    unfold transformAndFold
    rcases cfg.transform d with _ | d'
    · exact ⟨rfl, h1, h2⟩
    · obtain ⟨h3, h4⟩ := hr d'.nUnits w w' h2
      simp only [h3]
      exact ⟨trivial, h1, h4⟩
  · rintro ⟨s, w⟩ ⟨t, w'⟩ ⟨h1, -⟩
    obtain rfl : t = _ := h1
    refine .ite (sim_appendFolds new) (.modify ?_)
    rintro ⟨s, w⟩ ⟨t, w'⟩ ⟨h1, h2⟩
    obtain rfl : t = _ := h1
    exact ⟨rfl, h2⟩

end Arm

/-! ## Bandits -/

namespace Bandit
variable {I S β α W W' : Type} [Field α] [LinearOrder α] [DecidableEq I]

/-- the arms have the same states and the worlds are related -/
def WorldRel (Q : W → W' → Prop) (p : (I → S) × W) (q : (I → S) × W') : Prop := q.1 = p.1 ∧ Q p.2 q.2

/-- bandits in related worlds: the same arms, and data generators that return the same batches -/
structure SameBandit (Q : W → W' → Prop) (env : BanditEnv W β) (env' : BanditEnv W' β) (ops : ArmOps S W β α) (ops' : ArmOps S W' β α) (u : ℕ) : Prop where
  generate : ∀ w w', Q w w' → (env'.generate u w').1 = (env.generate u w).1 ∧ Q (env.generate u w).2 (env'.generate u w').2
  update : ∀ d δ, Sim (fun (p : S × W) (q : S × W') => q.1 = p.1 ∧ Q p.2 q.2) (ops.update d δ) (ops'.update d δ)
  ci : ops'.ci = ops.ci
  varEst : ops'.varEst = ops.varEst
  cost : ops'.cost = ops.cost

variable {Q : W → W' → Prop} {env : BanditEnv W β} {env' : BanditEnv W' β} {ops : ArmOps S W β α} {ops' : ArmOps S W' β α} {cfg : BanditCfg I α}

theorem same_generate {u : ℕ} (h : SameBandit Q env env' ops ops' u) : Sim (WorldRel (I := I) (S := S) Q) (generate env u) (generate env' u) := by
  rintro ⟨s, w⟩ ⟨t, w'⟩ ⟨h1, h2⟩
  obtain ⟨h3, h4⟩ := h.generate w w' h2
  exact ⟨h3, h1, h4⟩

theorem same_updateArm {u : ℕ} (h : SameBandit Q env env' ops ops' u) (a : I) (d : ExpData β) (δ : Fl α) : Sim (WorldRel Q) (updateArm ops a d δ) (updateArm ops' a d δ) := by
  rintro ⟨s, w⟩ ⟨t, w'⟩ ⟨h1, h2⟩
  obtain rfl : t = s := h1
  obtain ⟨h3, h4, h5⟩ := h.update d δ (t a, w) (t a, w') ⟨rfl, h2⟩
  unfold updateArm
  simp only [h3, h4]
  exact ⟨trivial, rfl, h5⟩

theorem same_record {u : ℕ} (h : SameBandit Q env env' ops ops' u) (k : I → ℕ) (a : I) (x : Hist I α) : Sim (WorldRel Q) (record ops k a x) (record ops' k a x) := by
  rintro ⟨s, w⟩ ⟨t, w'⟩ ⟨h1, h2⟩
  obtain rfl : t = s := h1
  unfold record
  simp only [h.ci, h.varEst, h.cost]
  exact ⟨trivial, rfl, h2⟩

theorem same_collect {u : ℕ} (h : SameBandit Q env env' ops ops' u) : collectBounds (I := I) ops' = collectBounds ops := by
  funext arms heap
  unfold collectBounds
  rw [h.ci, h.varEst, h.cost]

/-- uniform sampling in related worlds -/
theorem sim_uniform (h : SameBandit Q env env' ops ops' cfg.unitsPerRound) (fuel : ℕ) : Sim (WorldRel Q) (uniformRun env ops cfg none fuel) (uniformRun env' ops' cfg none fuel) := by
  refine .loop (fun x => .bind (same_generate h) fun d => .bind (.forEach (fun a x => .bind (same_updateArm h a d _) fun _ => same_record h _ a x) _ _) fun x => .bind (.lift _) fun o => .get ?_) fuel _
  rintro ⟨s, w⟩ ⟨t, w'⟩ ⟨h1, -⟩
  obtain rfl : t = s := h1
  refine .ite ?_ ?_
  · unfold lowestVarArms
    rw [same_collect h]
    exact .bind (.lift _) fun best => .pure _
  · unfold checkEnd
    rw [same_collect h]
    refine .bind (.lift _) ?_
    rintro ⟨ends, best⟩
    exact .ite (.pure _) (.pure _)

/-- successive elimination in related worlds -/
theorem sim_se (h : SameBandit Q env env' ops ops' cfg.unitsPerRound) (fuel : ℕ) : Sim (WorldRel Q) (seRun env ops cfg none fuel) (seRun env' ops' cfg none fuel) := by
  refine .loop (fun x => .ite (.pure _) (.bind (.lift _) fun o => .ite (.get ?_) ?_)) fuel _
  · rintro ⟨s, w⟩ ⟨t, w'⟩ ⟨h1, -⟩
    obtain rfl : t = s := h1
    unfold lowestVarArms
    rw [same_collect h]
    exact .bind (.lift _) fun best => .pure _
  · refine .bind (.forEach (fun a _ => .bind (same_generate h) fun d => same_updateArm h a d _) _ _) fun _ => .bind (.forEach (fun a x => same_record h _ a x) _ _) fun y =>
      .bind (.lift _) fun cands => .ite (.pure _) (.pure _)

end Bandit

section
variable {σ τ B : Type} {R : σ → τ → Prop} {run : ℕ → Py σ (Option B)} {run' : ℕ → Py τ (Option B)} {s : σ} {t : τ}

theorem neverRaises_of_sim (h : ∀ n, Sim R (run n) (run' n)) (hst : R s t) (hn : NeverRaises run s) : NeverRaises run' t := by
  intro n e t' he
  have := (h n s t hst).1
  rw [he] at this
  exact hn n e _ (Prod.ext this.symm rfl)

theorem ends_of_sim (h : ∀ n, Sim R (run n) (run' n)) (hst : R s t) (hn : Ends run s) : Ends run' t := by
  obtain ⟨n, r, s', e⟩ := hn
  refine ⟨n, r, _, Prod.ext ((h n s t hst).1.trans ?_) rfl⟩
  rw [e]

theorem answer_of_sim (h : ∀ n, Sim R (run n) (run' n)) (hst : R s t) {n : ℕ} {r : B} {t' : τ} (e : run' n t = (.ok (some r), t')) : ∃ s', run n s = (.ok (some r), s') := by
  have := (h n s t hst).1
  rw [e] at this
  exact ⟨_, Prod.ext this.symm rfl⟩

end
end Verif
