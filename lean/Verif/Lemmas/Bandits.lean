import Verif.Spec.Bandits
import Verif.Lemmas.Arms3

/-!
# Loops, and what one round of a bandit records
-/

set_option linter.unusedSectionVars false
set_option linter.unusedSimpArgs false

namespace Verif

namespace Py
variable {σ H R : Type}

/-- Invariant rule for the fuelled loop. -/
theorem loop_inv {body : H → Py σ (H ⊕ R)} (Inv : H → σ → Prop) (Post : R → σ → Prop)
    (step : ∀ h s h' s', Inv h s → body h s = (.ok (.inl h'), s') → Inv h' s')
    (exit : ∀ h s r s', Inv h s → body h s = (.ok (.inr r), s') → Post r s')
    (n : Nat) (h : H) (s : σ) (hi : Inv h s) (r : R) (s' : σ) (hr : Py.loop body n h s = (.ok (some r), s')) : Post r s' := by
  induction n generalizing h s with
  | zero => simp [Py.loop, pure_apply] at hr
  | succ n ih =>
    unfold Py.loop at hr
    obtain ⟨x, s1, h1, h2⟩ := Arm.bind_inv hr
    cases x with
    | inl h' => exact ih h' s1 (step _ _ _ _ hi h1) h2
    | inr r' =>
      simp only [pure_apply, Prod.mk.injEq, Except.ok.injEq, Option.some.injEq] at h2
      obtain ⟨rfl, rfl⟩ := h2
      exact exit _ _ _ _ hi h1

/-- If round `k` can only continue while `k + 1 < N`, the loop stops within `N` rounds. -/
theorem loop_stops {body : H → Py σ (H ⊕ R)} (Inv : Nat → H → Prop) (N : Nat)
    (step : ∀ k h s h' s', Inv k h → body h s = (.ok (.inl h'), s') → Inv (k + 1) h' ∧ k + 1 < N)
    (n k : Nat) (h : H) (s : σ) (hi : Inv k h) (hk : k < N) (hn : N ≤ k + n) (s' : σ) :
    Py.loop body n h s ≠ (.ok none, s') := by
  induction n generalizing h s k with
  | zero => omega
  | succ n ih =>
    intro hr
    unfold Py.loop at hr
    obtain ⟨x, s1, h1, h2⟩ := Arm.bind_inv hr
    cases x with
    | inl h' =>
      obtain ⟨h3, h4⟩ := step _ _ _ _ _ hi h1
      exact ih (k + 1) h' s1 h3 h4 (by omega) h2
    | inr r' => simp [pure_apply] at h2

/-- Hoare triples with a separate postcondition for exceptions. -/
def Triple {A : Type} (P : σ → Prop) (m : Py σ A) (Q : A → σ → Prop) (E : σ → Prop) : Prop :=
  ∀ s, P s → (∀ a s', m s = (.ok a, s') → Q a s') ∧ (∀ e s', m s = (.error e, s') → E s')

section Triple
variable {A B : Type} {P : σ → Prop} {E : σ → Prop}

theorem Triple.bind {m : Py σ A} {f : A → Py σ B} {Q : A → σ → Prop} {Q' : B → σ → Prop}
    (hm : Triple P m Q E) (hf : ∀ a, Triple (Q a) (f a) Q' E) : Triple P (m >>= f) Q' E := by
  intro s hs
  rcases h : m s with ⟨r, s1⟩
  cases r with
  | error e =>
    rw [bind_error h]
    refine ⟨by simp, ?_⟩
    intro e' s' he
    simp only [Prod.mk.injEq, Except.error.injEq] at he
    obtain ⟨rfl, rfl⟩ := he
    exact (hm s hs).2 _ _ h
  | ok a =>
    rw [bind_ok h]
    exact hf a s1 ((hm s hs).1 _ _ h)

theorem Triple.pure {a : A} {Q : A → σ → Prop} (h : ∀ s, P s → Q a s) : Triple P (Pure.pure a) Q E := by
  intro s hs
  refine ⟨?_, by simp [pure_apply]⟩
  intro a' s' he
  simp only [pure_apply, Prod.mk.injEq, Except.ok.injEq] at he
  obtain ⟨rfl, rfl⟩ := he
  exact h _ hs

theorem Triple.raise {e : PyErr} {Q : A → σ → Prop} (h : ∀ s, P s → E s) : Triple P (Py.raise e) Q E := by
  intro s hs
  refine ⟨by simp [raise_apply], ?_⟩
  intro e' s' he
  simp only [raise_apply, Prod.mk.injEq] at he
  obtain ⟨_, rfl⟩ := he
  exact h _ hs

theorem Triple.get {Q : σ → σ → Prop} (h : ∀ s, P s → Q s s) : Triple P Py.get Q E := by
  intro s hs
  refine ⟨?_, by simp [get_apply]⟩
  intro a' s' he
  simp only [get_apply, Prod.mk.injEq, Except.ok.injEq] at he
  obtain ⟨rfl, rfl⟩ := he
  exact h _ hs

theorem Triple.lift {x : Except PyErr A} {Q : A → σ → Prop} (h : ∀ a s, P s → x = .ok a → Q a s) (he : ∀ s, P s → E s) :
    Triple P (Py.lift x) Q E := by
  intro s hs
  refine ⟨?_, ?_⟩
  · intro a s' h1
    simp only [lift_apply, Prod.mk.injEq] at h1
    obtain ⟨h1, rfl⟩ := h1
    exact h _ _ hs h1
  · intro e s' h1
    simp only [lift_apply, Prod.mk.injEq] at h1
    obtain ⟨_, rfl⟩ := h1
    exact he _ hs

theorem Triple.weaken {P' : σ → Prop} {m : Py σ A} {Q Q' : A → σ → Prop} {E' : σ → Prop} (h : Triple P m Q E)
    (hp : ∀ s, P' s → P s) (hq : ∀ a s, Q a s → Q' a s) (he : ∀ s, E s → E' s) : Triple P' m Q' E' := by
  intro s hs
  exact ⟨fun a s' h1 => hq _ _ ((h s (hp s hs)).1 a s' h1), fun e s' h1 => he _ ((h s (hp s hs)).2 e s' h1)⟩

theorem Triple.loop {body : H → Py σ (H ⊕ R)} {Inv : H → σ → Prop} {Post : σ → Prop}
    (hbody : ∀ h, Triple (Inv h) (body h) (fun x s => Sum.elim (fun h' => Inv h' s) (fun _ => Post s) x) Post)
    (hinv : ∀ h s, Inv h s → Post s) (n : Nat) (h : H) :
    Triple (Inv h) (Py.loop body n h) (fun _ s => Post s) Post := by
  induction n generalizing h with
  | zero => exact Triple.pure fun s hs => hinv _ _ hs
  | succ n ih =>
    unfold Py.loop
    refine Triple.bind (hbody h) fun x => ?_
    cases x with
    | inl h' => exact ih h'
    | inr r => exact Triple.pure fun s hs => hs

end Triple

theorem forEach_nil {I : Type} (f : I → H → Py σ H) (h : H) : forEach f [] h = pure h := rfl
theorem forEach_cons {I : Type} (f : I → H → Py σ H) (a : I) (l : List I) (h : H) :
    forEach f (a :: l) h = f a h >>= fun h' => forEach f l h' := rfl

end Py

namespace Bandit
variable {I S W β α : Type} [Field α] [LinearOrder α] [DecidableEq I]

theorem costTimes_ok {c : Fl α} {o : Option (Fl α)} {x : Fl α} (h : costTimes c o = .ok x) : o.map c.mul = some x := by
  cases o <;> simp_all [costTimes]

/-- `h'` extends the histories of arm `a` in `h` by one entry describing `heap a`. -/
def Extends (ops : ArmOps S W β α) (heap : I → S) (k : Nat) (h h' : Hist I α) (a : I) : Prop :=
  ∃ l u v, (ops.ci (heap a)).1.map (ops.cost (heap a)).mul = some l ∧
    (ops.ci (heap a)).2.map (ops.cost (heap a)).mul = some u ∧ (ops.varEst (heap a)).map (ops.cost (heap a)).mul = some v ∧
    h'.lcb a = h.lcb a ++ [l] ∧ h'.ucb a = h.ucb a ++ [u] ∧ h'.var a = h.var a ++ [v] ∧ h'.samples a = h.samples a ++ [k]

/-- The histories of arm `a` are the same. -/
def SameAt (h h' : Hist I α) (a : I) : Prop :=
  h'.lcb a = h.lcb a ∧ h'.ucb a = h.ucb a ∧ h'.var a = h.var a ∧ h'.samples a = h.samples a

theorem Extends.trans_same {ops : ArmOps S W β α} {heap heap' : I → S} {k : Nat} {h h1 h2 : Hist I α} {a : I}
    (h01 : Extends ops heap k h h1 a) (h12 : SameAt h1 h2 a) (hh : heap' a = heap a) : Extends ops heap' k h h2 a := by
  obtain ⟨l, u, v, e1, e2, e3, e4, e5, e6, e7⟩ := h01
  obtain ⟨s1, s2, s3, s4⟩ := h12
  rw [← hh] at e1 e2 e3
  exact ⟨l, u, v, e1, e2, e3, s1.trans e4, s2.trans e5, s3.trans e6, s4.trans e7⟩

theorem Extends.of_same {ops : ArmOps S W β α} {heap : I → S} {k : Nat} {h h1 h2 : Hist I α} {a : I}
    (h01 : SameAt h h1 a) (h12 : Extends ops heap k h1 h2 a) : Extends ops heap k h h2 a := by
  obtain ⟨l, u, v, e1, e2, e3, e4, e5, e6, e7⟩ := h12
  obtain ⟨s1, s2, s3, s4⟩ := h01
  exact ⟨l, u, v, e1, e2, e3, s1 ▸ e4, s2 ▸ e5, s3 ▸ e6, s4 ▸ e7⟩

theorem record_ok {ops : ArmOps S W β α} {k : I → Nat} {a : I} {h h' : Hist I α} {s s' : (I → S) × W}
    (hr : record ops k a h s = (.ok h', s')) :
    s' = s ∧ Extends ops s.1 (k a) h h' a ∧ (∀ b, b ≠ a → SameAt h h' b) ∧ h'.cum = h.cum ∧ h'.total = h.total := by
  obtain ⟨heap, w⟩ := s
  simp only [record, Prod.mk.injEq] at hr
  obtain ⟨h1, rfl⟩ := hr
  rcases hl : costTimes (ops.cost (heap a)) (ops.ci (heap a)).1 with e | l
  · simp [hl, bind, Except.bind] at h1
  rcases hu : costTimes (ops.cost (heap a)) (ops.ci (heap a)).2 with e | u
  · simp [hl, hu, bind, Except.bind] at h1
  rcases hv : costTimes (ops.cost (heap a)) (ops.varEst (heap a)) with e | v
  · simp [hl, hu, hv, bind, Except.bind] at h1
  simp only [hl, hu, hv, bind, Except.bind, pure, Except.pure, Except.ok.injEq] at h1
  subst h1
  refine ⟨rfl, ⟨l, u, v, costTimes_ok hl, costTimes_ok hu, costTimes_ok hv, ?_⟩, ?_, rfl, rfl⟩
  · simp
  · intro b hb
    simp [SameAt, Function.update_of_ne hb]

theorem updateArm_ok {ops : ArmOps S W β α} {a : I} {d : ExpData β} {δ : Fl α} {s s' : (I → S) × W}
    (hr : updateArm ops a d δ s = (.ok (), s')) :
    ∃ r s1, ops.update d δ (s.1 a, s.2) = (.ok r, s1, s'.2) ∧ s'.1 = Function.update s.1 a s1 := by
  obtain ⟨heap, w⟩ := s
  simp only [updateArm, Prod.mk.injEq] at hr
  obtain ⟨h1, rfl⟩ := hr
  rcases hu : ops.update d δ (heap a, w) with ⟨r, s1, w1⟩
  rw [hu] at h1
  cases r with
  | error e => simp [Except.map] at h1
  | ok r => exact ⟨r, s1, rfl, rfl⟩

theorem record_forEach {ops : ArmOps S W β α} {k : I → Nat} {l : List I} (hnd : l.Nodup) {h h' : Hist I α} {s s' : (I → S) × W}
    (hr : Py.forEach (record ops k) l h s = (.ok h', s')) :
    s' = s ∧ (∀ a ∈ l, Extends ops s.1 (k a) h h' a) ∧ (∀ b, b ∉ l → SameAt h h' b) ∧ h'.cum = h.cum ∧ h'.total = h.total := by
  induction l generalizing h s with
  | nil =>
    simp only [Py.forEach_nil, Py.pure_apply, Prod.mk.injEq, Except.ok.injEq] at hr
    obtain ⟨rfl, rfl⟩ := hr
    exact ⟨rfl, by simp, fun _ _ => ⟨rfl, rfl, rfl, rfl⟩, rfl, rfl⟩
  | cons a l ih =>
    rw [Py.forEach_cons] at hr
    obtain ⟨h1, s1, e1, e2⟩ := Arm.bind_inv hr
    obtain ⟨rfl, f1, f2, f3, f4⟩ := record_ok e1
    rw [List.nodup_cons] at hnd
    obtain ⟨rfl, g1, g2, g3, g4⟩ := ih hnd.2 e2
    refine ⟨rfl, ?_, ?_, g3.trans f3, g4.trans f4⟩
    · intro b hb
      rcases List.mem_cons.mp hb with rfl | hb
      · exact f1.trans_same (g2 _ hnd.1) rfl
      · exact (g1 b hb).of_same (f2 b fun h => hnd.1 (h ▸ hb))
    · intro b hb
      simp only [List.mem_cons, not_or] at hb
      obtain ⟨a1, a2, a3, a4⟩ := f2 b hb.1
      obtain ⟨b1, b2, b3, b4⟩ := g2 b hb.2
      exact ⟨b1.trans a1, b2.trans a2, b3.trans a3, b4.trans a4⟩

theorem updateRecord_forEach {ops : ArmOps S W β α} {cfg : BanditCfg I α} {d : ExpData β} {l : List I} (hnd : l.Nodup)
    {h h' : Hist I α} {s s' : (I → S) × W} (hr : Py.forEach (updateRecord ops cfg d) l h s = (.ok h', s')) :
    Pulls ops (l.map fun a => ⟨a, d, level cfg⟩) s.1 s'.1 ∧ (∀ b, b ∉ l → s'.1 b = s.1 b) ∧
    (∀ a ∈ l, Extends ops s'.1 cfg.unitsPerRound h h' a) ∧ (∀ b, b ∉ l → SameAt h h' b) ∧ h'.cum = h.cum ∧ h'.total = h.total := by
  induction l generalizing h s with
  | nil =>
    simp only [Py.forEach_nil, Py.pure_apply, Prod.mk.injEq, Except.ok.injEq] at hr
    obtain ⟨rfl, rfl⟩ := hr
    exact ⟨.nil _, fun _ _ => rfl, by simp, fun _ _ => ⟨rfl, rfl, rfl, rfl⟩, rfl, rfl⟩
  | cons a l ih =>
    rw [Py.forEach_cons] at hr
    obtain ⟨h1, s2, e1, e2⟩ := Arm.bind_inv hr
    unfold updateRecord at e1
    obtain ⟨⟨⟩, s1, e0, e1⟩ := Arm.bind_inv e1
    obtain ⟨r, sa, u1, u2⟩ := updateArm_ok e0
    obtain ⟨rfl, f1, f2, f3, f4⟩ := record_ok e1
    rw [List.nodup_cons] at hnd
    obtain ⟨g0, gh, g1, g2, g3, g4⟩ := ih hnd.2 e2
    refine ⟨.cons u1 (u2 ▸ g0), ?_, ?_, ?_, g3.trans f3, g4.trans f4⟩
    · intro b hb
      simp only [List.mem_cons, not_or] at hb
      rw [gh b hb.2, u2, Function.update_of_ne hb.1]
    · intro b hb
      rcases List.mem_cons.mp hb with rfl | hb
      · exact f1.trans_same (g2 _ hnd.1) (gh _ hnd.1)
      · exact (g1 b hb).of_same (f2 b fun h => hnd.1 (h ▸ hb))
    · intro b hb
      simp only [List.mem_cons, not_or] at hb
      obtain ⟨a1, a2, a3, a4⟩ := f2 b hb.1
      obtain ⟨b1, b2, b3, b4⟩ := g2 b hb.2
      exact ⟨b1.trans a1, b2.trans a2, b3.trans a3, b4.trans a4⟩

theorem samplesFor_ok {env : BanditEnv W β} {ops : ArmOps S W β α} {all : Option (ExpData β)} {u : Nat} {a : I} {d : ExpData β}
    {s s' : (I → S) × W} (hr : samplesFor env ops all u a s = (.ok d, s')) : s'.1 = s.1 := by
  unfold samplesFor at hr
  cases all with
  | none => simp only [generate, Prod.mk.injEq] at hr; rw [← hr.2]
  | some x => simp only [nextSlice, Prod.mk.injEq] at hr; rw [← hr.2]

theorem pull_forEach {env : BanditEnv W β} {ops : ArmOps S W β α} {cfg : BanditCfg I α} {all : Option (ExpData β)} {l : List I}
    {s s' : (I → S) × W} {x : Unit} (hr : Py.forEach (pull env ops cfg all) l x s = (.ok (), s')) :
    ∃ ps, ps.map (·.arm) = l ∧ (∀ p ∈ ps, p.level = level cfg) ∧ Pulls ops ps s.1 s'.1 := by
  induction l generalizing s x with
  | nil =>
    simp only [Py.forEach_nil, Py.pure_apply, Prod.mk.injEq, Except.ok.injEq] at hr
    obtain ⟨_, rfl⟩ := hr
    exact ⟨[], rfl, by simp, .nil _⟩
  | cons a l ih =>
    rw [Py.forEach_cons] at hr
    obtain ⟨⟨⟩, s2, e1, e2⟩ := Arm.bind_inv hr
    unfold pull at e1
    obtain ⟨d, s1, e0, e1⟩ := Arm.bind_inv e1
    obtain ⟨r, sa, u1, u2⟩ := updateArm_ok e1
    have h0 := samplesFor_ok e0
    obtain ⟨ps, p1, p2, p3⟩ := ih e2
    refine ⟨⟨a, d, level cfg⟩ :: ps, by simp [p1], ?_, ?_⟩
    · intro p hp
      rcases List.mem_cons.mp hp with rfl | hp
      · rfl
      · exact p2 p hp
    · rw [h0] at u1 u2
      exact .cons u1 (u2 ▸ p3)

end Bandit
end Verif
