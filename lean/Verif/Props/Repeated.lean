import Mathlib.Data.List.Duplicate
import Mathlib.Data.List.NodupEquivFin
import Verif.Props.Bandits2
import Verif.Lemmas.Bandits5

/-!
# Property C111: arms that are listed more than once

`arm_list` may contain the same arm object several times; the theorems on histories exclude this.  Here no assumption is
made on the list.
-/

set_option linter.unusedSectionVars false
set_option linter.unusedSimpArgs false

namespace Verif
namespace Bandit

variable {I S W β α : Type} [Field α] [LinearOrder α] [IsStrictOrderedRing α] [DecidableEq I]
variable {env : BanditEnv W β} {ops : ArmOps S W β α} {cfg : BanditCfg I α} {all : Option (ExpData β)} {fuel : Nat}
  {heap : I → S} {w : W} {bd : BanditData I α} {s' : (I → S) × W} {L : Fl α}

/-- The interval of an arm, multiplied by its cost, is not yet defined or its lower bound is at most its upper bound. -/
def Proper (ops : ArmOps S W β α) (s : S) : Prop :=
  ∀ l u, (ops.ci s).1 = some l → (ops.ci s).2 = some u → (ops.cost s).mul u = .nan ∨ ((ops.cost s).mul l).le ((ops.cost s).mul u) = true

theorem subTol_le {m tol : Fl α} (ht : tol.lt (.fin 0) = false) (hn : m.sub tol ≠ .nan) : (m.sub tol).le m = true := by
  cases m <;> cases tol <;> simp_all [Fl.sub, Fl.neg, Fl.add, Fl.le, Fl.lt, Fl.eq]
  exact ht.lt_or_eq.imp_right Eq.symm

/-- If the stopping test passes, the arm declared best is listed once. -/
theorem checkEnd_once (htol : cfg.errorTol.lt (.fin 0) = false) (hp : ∀ a ∈ cfg.arms, Proper ops (heap a)) {best : List I}
    (h : checkEnd ops cfg heap = .ok (true, best)) : ∃ b, best = [b] ∧ cfg.arms.count b = 1 := by
  have hc : ∀ a ∈ cfg.arms, (ops.ci (heap a)).1.isSome = true ∧ (ops.ci (heap a)).2.isSome = true := by
    unfold checkEnd collectBounds at h
    simp only [Bind.bind, Except.bind] at h
    split at h
    · simp at h
    rename_i x hx
    split at hx
    · simp at hx
    rename_i us hu
    split at hx
    · simp at hx
    rename_i ls hl
    exact fun a ha => ⟨(mapM_costTimes hl).2 a ha, (mapM_costTimes hu).2 a ha⟩
  obtain ⟨i, b, u, m, h1, h2, h3, h4, h5, h6, -⟩ := endCondition_ok (checkEnd_ok h)
  have hb : b ∈ cfg.arms := List.mem_of_getElem? h2
  have hu : u = ucbV ops heap b := by
    rw [List.getElem?_map, h2] at h4; simpa using h4.symm
  subst hu
  refine ⟨b, h3, ?_⟩
  by_contra hcount
  have hpos : 0 < cfg.arms.count b := List.count_pos_iff.2 hb
  have hdup : List.Duplicate b cfg.arms := List.duplicate_iff_two_le_count.2 (by omega)
  obtain ⟨n, k, hnk, en, ek⟩ := List.duplicate_iff_exists_distinct_get.1 hdup
  obtain ⟨j, hji, hj⟩ : ∃ j, j ≠ i ∧ cfg.arms[j]? = some b := by
    by_cases hni : n.1 = i
    · refine ⟨k.1, ?_, ?_⟩
      · have : n.1 < k.1 := hnk
        omega
      · rw [List.getElem?_eq_getElem k.2]; exact congrArg some ek.symm
    · exact ⟨n.1, hni, by rw [List.getElem?_eq_getElem n.2]; exact congrArg some en.symm⟩
  have hsub := (Fl.ne_nan_of_lt _ _ h6).2
  have hm : m ≠ .nan := by
    rintro rfl
    exact hsub (by cases cfg.errorTol <;> rfl)
  obtain ⟨l, hl⟩ := Option.isSome_iff_exists.1 (hc b hb).1
  obtain ⟨u, hu⟩ := Option.isSome_iff_exists.1 (hc b hb).2
  have eu : ucbV ops heap b = (ops.cost (heap b)).mul u := by simp [ucbV, hu]
  have el : lcbV ops heap b = (ops.cost (heap b)).mul l := by simp [lcbV, hl]
  rcases hp b hb l u hl hu with hx | hx
  · exact (Fl.ne_nan_of_lt _ _ h6).1 (eu.trans hx)
  · rw [← eu, ← el] at hx
    have h7 := Fl.pyMin_le h5 hm _ (mem_eraseIdx_map (lcbV ops heap) hj hji) (Fl.ne_nan_of_le _ _ hx).1
    have h8 := Fl.lt_of_lt_of_le' _ _ _ h6 (Fl.le_trans' _ _ _ (subTol_le htol hsub) (Fl.le_trans' _ _ _ h7 hx))
    rw [Fl.lt_irrefl] at h8
    cases h8

theorem addSamples_last (n : Nat) (h : Hist I α) : (addSamples n h).cum.getLast? = some (addSamples n h).total := by
  simp [addSamples]

theorem within_total {h : Hist I α} {best : List I} (hl : h.cum.getLast? = some h.total) (hin : EndsWithin L (Hist.done h best)) :
    L.lt (.fin (h.total : α)) = false := hin _ hl

/-- A run of Uniform that returns within the limit returns what the stopping test declared best. -/
theorem uniform_within' (hr : uniformRun env ops cfg all fuel (heap, w) = (.ok (some bd), s')) (hL : cfg.sampleLimit = some L)
    (hin : EndsWithin L bd) : checkEnd ops cfg s'.1 = .ok (true, bd.best) := by
  unfold uniformRun at hr
  refine Py.loop_inv (fun _ _ => True) (fun bd s => EndsWithin L bd → checkEnd ops cfg s.1 = .ok (true, bd.best)) (fun _ _ _ _ _ _ => trivial)
    (fun h s r s' _ he hin => ?_) fuel _ _ trivial _ _ hr hin
  unfold uniformRound at he
  replace he := Arm.bind_inv he; obtain ⟨d, s1, -, he⟩ := he
  replace he := Arm.bind_inv he; obtain ⟨h1, s2, -, he⟩ := he
  dsimp only at he
  replace he := Arm.bind_inv he; obtain ⟨o, s3, e3, he⟩ := he
  obtain ⟨q3, rfl⟩ := lift_ok e3
  obtain ⟨L', hL', ho⟩ := overLimit_ok q3
  rw [hL] at hL'
  cases hL'
  replace he := Arm.bind_inv he; obtain ⟨⟨hp, w1⟩, s4, e4, he⟩ := he
  obtain ⟨rfl, rfl⟩ := get_ok e4
  dsimp only at he
  split at he
  · rename_i hot
    replace he := Arm.bind_inv he; obtain ⟨best, s5, e5, he⟩ := he
    obtain ⟨q5, rfl⟩ := lift_ok e5
    obtain ⟨hx, rfl⟩ := pure_ok he
    cases hx
    have := within_total (addSamples_last _ _) hin
    rw [ho, hot] at this
    cases this
  · replace he := Arm.bind_inv he; obtain ⟨⟨ends, best⟩, s5, e5, he⟩ := he
    obtain ⟨q5, rfl⟩ := lift_ok e5
    dsimp only at he
    split at he
    · rename_i hends
      obtain ⟨hx, rfl⟩ := pure_ok he
      cases hx
      rw [hends] at q5
      exact q5
    · obtain ⟨hx, rfl⟩ := pure_ok he
      cases hx

/-- A run of LUCB that returns within the limit returns what the stopping test declared best. -/
theorem lucb_within' (hr : lucbRun env ops cfg all fuel (heap, w) = (.ok (some bd), s')) (hL : cfg.sampleLimit = some L)
    (hin : EndsWithin L bd) : checkEnd ops cfg s'.1 = .ok (true, bd.best) := by
  unfold lucbRun at hr
  replace hr := Arm.bind_inv hr; obtain ⟨d, s1, -, hr⟩ := hr
  replace hr := Arm.bind_inv hr; obtain ⟨h1, s2, -, hr⟩ := hr
  have key : ∀ (h : Hist I α) (s s' : (I → S) × W) (x : Hist I α ⊕ BanditData I α), h.cum.getLast? = some h.total → lucbRound env ops cfg all h s = (.ok x, s') →
      Sum.elim (fun h' => h'.cum.getLast? = some h'.total) (fun bd => EndsWithin L bd → checkEnd ops cfg s'.1 = .ok (true, bd.best)) x := by
    intro h s s' x hi he
    unfold lucbRound at he
    replace he := Arm.bind_inv he; obtain ⟨o, s3, e3, he⟩ := he
    obtain ⟨q3, rfl⟩ := lift_ok e3
    obtain ⟨L', hL', ho⟩ := overLimit_ok q3
    rw [hL] at hL'
    cases hL'
    split at he
    · rename_i hot
      replace he := Arm.bind_inv he; obtain ⟨⟨hp, w1⟩, s4, e4, he⟩ := he
      obtain ⟨rfl, rfl⟩ := get_ok e4
      dsimp only at he
      replace he := Arm.bind_inv he; obtain ⟨best, s5, e5, he⟩ := he
      obtain ⟨q5, rfl⟩ := lift_ok e5
      obtain ⟨rfl, rfl⟩ := pure_ok he
      intro hin
      have := within_total hi hin
      rw [ho, hot] at this
      cases this
    · replace he := Arm.bind_inv he; obtain ⟨c, s4, -, he⟩ := he
      replace he := Arm.bind_inv he; obtain ⟨_, s5, -, he⟩ := he
      replace he := Arm.bind_inv he; obtain ⟨h2, s6, -, he⟩ := he
      dsimp only at he
      replace he := Arm.bind_inv he; obtain ⟨⟨hp, w1⟩, s7, e7, he⟩ := he
      obtain ⟨rfl, rfl⟩ := get_ok e7
      dsimp only at he
      replace he := Arm.bind_inv he; obtain ⟨⟨ends, best⟩, s8, e8, he⟩ := he
      obtain ⟨q8, rfl⟩ := lift_ok e8
      dsimp only at he
      split at he
      · rename_i hends
        obtain ⟨rfl, rfl⟩ := pure_ok he
        rw [hends] at q8
        exact fun _ => q8
      · obtain ⟨rfl, rfl⟩ := pure_ok he
        exact addSamples_last _ _
  exact Py.loop_inv (fun (h : Hist I α) (_ : (I → S) × W) => h.cum.getLast? = some h.total)
    (fun (bd : BanditData I α) (s : (I → S) × W) => EndsWithin L bd → checkEnd ops cfg s.1 = .ok (true, bd.best)) (fun h s h' s' hi he => key h s s' _ hi he) (fun h s r s' hi he => key h s s' _ hi he) fuel _ _ (addSamples_last _ _) _ _ hr hin

/-- What updates keep holds for the arms after a run of Uniform or LUCB. -/
theorem proper_after (hu : ∀ d δ s w, Proper ops s → Proper ops (ops.update d δ (s, w)).2.1) (hp : ∀ a ∈ cfg.arms, Proper ops (heap a)) :
    (∀ a ∈ cfg.arms, Proper ops ((uniformRun env ops cfg all fuel (heap, w)).2.1 a)) ∧
    (∀ a ∈ cfg.arms, Proper ops ((lucbRun env ops cfg all fuel (heap, w)).2.1 a)) := by
  have := triple_all (fun h => ∀ a ∈ cfg.arms, Proper ops (h a)) env ops cfg all (fun a ha d s w hs b hb => ?_) fuel heap w hp
  · exact ⟨this.1, this.2.1⟩
  · simp only [updateArm, Function.update_apply]
    split
    · exact hu _ _ _ _ (hs a ha)
    · exact hs b hb

/-- **C111** Uniform and LUCB: if updates keep intervals in order and `error_tol` is not negative, the arm that a run declares
best within the limit is listed once. -/
theorem C111_listed_once (htol : cfg.errorTol.lt (.fin 0) = false) (hu : ∀ d δ s w, Proper ops s → Proper ops (ops.update d δ (s, w)).2.1)
    (hp : ∀ a ∈ cfg.arms, Proper ops (heap a)) (hL : cfg.sampleLimit = some L) (hin : EndsWithin L bd)
    (hr : uniformRun env ops cfg all fuel (heap, w) = (.ok (some bd), s') ∨ lucbRun env ops cfg all fuel (heap, w) = (.ok (some bd), s')) :
    ∃ b, bd.best = [b] ∧ cfg.arms.count b = 1 := by
  have h := proper_after (env := env) (all := all) (fuel := fuel) (w := w) hu hp
  rcases hr with hr | hr
  · exact checkEnd_once htol (by have := h.1; rwa [hr] at this) (uniform_within' hr hL hin)
  · exact checkEnd_once htol (by have := h.2; rwa [hr] at this) (lucb_within' hr hL hin)

/-- **C111** Without a sample limit a run of Uniform or LUCB never returns if every arm is listed more than once. -/
theorem C111_never (htol : cfg.errorTol.lt (.fin 0) = false) (hu : ∀ d δ s w, Proper ops s → Proper ops (ops.update d δ (s, w)).2.1)
    (hp : ∀ a ∈ cfg.arms, Proper ops (heap a)) (hL : cfg.sampleLimit = some .pinf) (h2 : ∀ a ∈ cfg.arms, 2 ≤ cfg.arms.count a) :
    uniformRun env ops cfg all fuel (heap, w) ≠ (.ok (some bd), s') ∧ lucbRun env ops cfg all fuel (heap, w) ≠ (.ok (some bd), s') := by
  have hin : EndsWithin .pinf bd := fun c _ => rfl
  have key : ¬ ∃ b, bd.best = [b] ∧ cfg.arms.count b = 1 := by
    rintro ⟨b, -, hb⟩
    have := h2 b (List.count_pos_iff.1 (by omega))
    omega
  exact ⟨fun hr => key (C111_listed_once htol hu hp hL hin (.inl hr)), fun hr => key (C111_listed_once htol hu hp hL hin (.inr hr))⟩

/-! ## Histories -/

/-- `h'` has `k a` more entries than `h` in every history of arm `a`. -/
def Longer (k : I → Nat) (h h' : Hist I α) : Prop :=
  ∀ a, (h'.lcb a).length = (h.lcb a).length + k a ∧ (h'.ucb a).length = (h.ucb a).length + k a ∧
    (h'.var a).length = (h.var a).length + k a ∧ (h'.samples a).length = (h.samples a).length + k a

theorem record_longer {k : I → Nat} {a : I} {h h' : Hist I α} {s s' : (I → S) × W} (hr : record ops k a h s = (.ok h', s')) :
    Longer (fun b => if b = a then 1 else 0) h h' := by
  obtain ⟨-, ⟨l, u, v, -, -, -, e4, e5, e6, e7⟩, f2, -⟩ := record_ok hr
  intro b
  by_cases hb : b = a
  · subst hb
    simp [e4, e5, e6, e7]
  · obtain ⟨g1, g2, g3, g4⟩ := f2 b hb
    simp [hb, g1, g2, g3, g4]

theorem forEach_longer {f : I → Hist I α → Py ((I → S) × W) (Hist I α)}
    (hf : ∀ a h s h' s', f a h s = (.ok h', s') → Longer (fun b => if b = a then 1 else 0) h h') {l : List I} {h h' : Hist I α} {s s' : (I → S) × W}
    (hr : Py.forEach f l h s = (.ok h', s')) : Longer (fun b => l.count b) h h' := by
  induction l generalizing h s with
  | nil =>
    simp only [Py.forEach_nil, Py.pure_apply, Prod.mk.injEq, Except.ok.injEq] at hr
    obtain ⟨rfl, rfl⟩ := hr
    intro a
    simp
  | cons a l ih =>
    rw [Py.forEach_cons] at hr
    obtain ⟨h1, s1, e1, e2⟩ := Arm.bind_inv hr
    intro b
    obtain ⟨g1, g2, g3, g4⟩ := hf _ _ _ _ _ e1 b
    obtain ⟨k1, k2, k3, k4⟩ := ih e2 b
    have : (a :: l).count b = l.count b + if b = a then 1 else 0 := by
      rw [List.count_cons]
      by_cases hb : b = a
      · simp [hb]
      · simp [hb, show ¬ a = b from fun h => hb h.symm]
    dsimp only at g1 g2 g3 g4 k1 k2 k3 k4 ⊢
    rw [this]
    omega

theorem updateRecord_longer {d : ExpData β} {a : I} {h h' : Hist I α} {s s' : (I → S) × W} (hr : updateRecord ops cfg d a h s = (.ok h', s')) :
    Longer (fun b => if b = a then 1 else 0) h h' := by
  unfold updateRecord at hr
  obtain ⟨_, s1, -, e⟩ := Arm.bind_inv hr
  exact record_longer e

/-- Every history of arm `a` has as many entries per round as `a` is listed. -/
def Multiple (arms : List I) (h : Hist I α) : Prop :=
  ∀ a, (h.lcb a).length = arms.count a * h.cum.length ∧ (h.ucb a).length = arms.count a * h.cum.length ∧
    (h.var a).length = arms.count a * h.cum.length ∧ (h.samples a).length = arms.count a * h.cum.length

theorem Longer.multiple {arms : List I} {n : Nat} {h h' : Hist I α} (hm : Multiple arms h) (hl : Longer (fun b => arms.count b) h h') (hc : h'.cum = h.cum) :
    Multiple arms (addSamples n h') := by
  intro a
  obtain ⟨g1, g2, g3, g4⟩ := hl a
  obtain ⟨k1, k2, k3, k4⟩ := hm a
  simp only [addSamples, List.length_append, List.length_singleton, hc, Nat.mul_add, Nat.mul_one, g1, g2, g3, g4, k1, k2, k3, k4, and_self]

theorem updateRecord_forEach_cum {d : ExpData β} {l : List I} {h h' : Hist I α} {s s' : (I → S) × W}
    (hr : Py.forEach (updateRecord ops cfg d) l h s = (.ok h', s')) : h'.cum = h.cum := by
  induction l generalizing h s with
  | nil =>
    simp only [Py.forEach_nil, Py.pure_apply, Prod.mk.injEq, Except.ok.injEq] at hr
    rw [hr.1]
  | cons a l ih =>
    rw [Py.forEach_cons] at hr
    obtain ⟨h1, s1, e1, e2⟩ := Arm.bind_inv hr
    unfold updateRecord at e1
    obtain ⟨_, s2, -, e⟩ := Arm.bind_inv e1
    obtain ⟨-, -, -, f3, -⟩ := record_ok e
    exact (ih e2).trans f3

theorem record_forEach_total {k : I → Nat} {l : List I} {h h' : Hist I α} {s s' : (I → S) × W}
    (hr : Py.forEach (record ops k) l h s = (.ok h', s')) : h'.cum = h.cum ∧ h'.total = h.total := by
  induction l generalizing h s with
  | nil =>
    simp only [Py.forEach_nil, Py.pure_apply, Prod.mk.injEq, Except.ok.injEq] at hr
    obtain ⟨rfl, rfl⟩ := hr
    exact ⟨rfl, rfl⟩
  | cons a l ih =>
    rw [Py.forEach_cons] at hr
    obtain ⟨h1, s1, e1, e2⟩ := Arm.bind_inv hr
    obtain ⟨-, -, -, f3, f4⟩ := record_ok e1
    obtain ⟨g3, g4⟩ := ih e2
    exact ⟨g3.trans f3, g4.trans f4⟩

/-- **C111** Uniform and LUCB: in every returned result the histories of an arm have as many entries for each round as the arm is
listed, so the histories of a repeated arm do not line up with `cum_samples`. -/
theorem C111_histories (hr : uniformRun env ops cfg all fuel (heap, w) = (.ok (some bd), s') ∨ lucbRun env ops cfg all fuel (heap, w) = (.ok (some bd), s')) (a : I) :
    (bd.lcb a).length = cfg.arms.count a * bd.cum.length ∧ (bd.ucb a).length = cfg.arms.count a * bd.cum.length ∧
      (bd.var a).length = cfg.arms.count a * bd.cum.length ∧ (bd.samples a).length = cfg.arms.count a * bd.cum.length := by
  have h0 : Multiple cfg.arms (Hist.empty : Hist I α) := fun a => by simp [Hist.empty]
  let Post : BanditData I α → Prop := fun bd => ∃ h best, Multiple cfg.arms h ∧ bd = Hist.done h best
  suffices hP : Post bd by
    obtain ⟨h, best, hm, rfl⟩ := hP
    exact hm a
  rcases hr with hr | hr
  · have key : ∀ (h : Hist I α) (s s' : (I → S) × W) (x : Hist I α ⊕ BanditData I α), Multiple cfg.arms h → uniformRound env ops cfg all h s = (.ok x, s') →
        Sum.elim (Multiple cfg.arms) Post x := by
      intro h s s' x hi he
      unfold uniformRound at he
      replace he := Arm.bind_inv he; obtain ⟨d, s1, -, he⟩ := he
      replace he := Arm.bind_inv he; obtain ⟨h1, s2, e2, he⟩ := he
      have hm : Multiple cfg.arms (addSamples (cfg.arms.length * cfg.unitsPerRound) h1) :=
        Longer.multiple hi (forEach_longer (fun _ _ _ _ _ e => updateRecord_longer e) e2) (updateRecord_forEach_cum e2)
      dsimp only at he
      replace he := Arm.bind_inv he; obtain ⟨o, s3, e3, he⟩ := he
      replace he := Arm.bind_inv he; obtain ⟨⟨hp, w1⟩, s4, e4, he⟩ := he
      dsimp only at he
      split at he
      · replace he := Arm.bind_inv he; obtain ⟨best, s5, e5, he⟩ := he
        obtain ⟨rfl, rfl⟩ := pure_ok he
        exact ⟨_, _, hm, rfl⟩
      · replace he := Arm.bind_inv he; obtain ⟨⟨ends, best⟩, s5, e5, he⟩ := he
        dsimp only at he
        split at he
        · obtain ⟨rfl, rfl⟩ := pure_ok he
          exact ⟨_, _, hm, rfl⟩
        · obtain ⟨rfl, rfl⟩ := pure_ok he
          exact hm
    unfold uniformRun at hr
    exact Py.loop_inv (fun (h : Hist I α) (_ : (I → S) × W) => Multiple cfg.arms h) (fun bd (_ : (I → S) × W) => Post bd)
      (fun h s h' s' hi he => key h s s' _ hi he) (fun h s r s' hi he => key h s s' _ hi he) fuel _ _ h0 _ _ hr
  · have key : ∀ (h : Hist I α) (s s' : (I → S) × W) (x : Hist I α ⊕ BanditData I α), Multiple cfg.arms h → lucbRound env ops cfg all h s = (.ok x, s') →
        Sum.elim (Multiple cfg.arms) Post x := by
      intro h s s' x hi he
      unfold lucbRound at he
      replace he := Arm.bind_inv he; obtain ⟨o, s3, e3, he⟩ := he
      split at he
      · replace he := Arm.bind_inv he; obtain ⟨⟨hp, w1⟩, s4, e4, he⟩ := he
        dsimp only at he
        replace he := Arm.bind_inv he; obtain ⟨best, s5, e5, he⟩ := he
        obtain ⟨rfl, rfl⟩ := pure_ok he
        exact ⟨_, _, hi, rfl⟩
      · replace he := Arm.bind_inv he; obtain ⟨c, s4, -, he⟩ := he
        replace he := Arm.bind_inv he; obtain ⟨_, s5, -, he⟩ := he
        replace he := Arm.bind_inv he; obtain ⟨h1, s6, e6, he⟩ := he
        have hm : Multiple cfg.arms (addSamples (2 * cfg.unitsPerRound) h1) :=
          Longer.multiple hi (forEach_longer (fun _ _ _ _ _ e => record_longer e) e6) (record_forEach_total e6).1
        dsimp only at he
        replace he := Arm.bind_inv he; obtain ⟨⟨hp, w1⟩, s7, e7, he⟩ := he
        dsimp only at he
        replace he := Arm.bind_inv he; obtain ⟨⟨ends, best⟩, s8, e8, he⟩ := he
        dsimp only at he
        split at he
        · obtain ⟨rfl, rfl⟩ := pure_ok he
          exact ⟨_, _, hm, rfl⟩
        · obtain ⟨rfl, rfl⟩ := pure_ok he
          exact hm
    unfold lucbRun at hr
    replace hr := Arm.bind_inv hr; obtain ⟨d, s1, -, hr⟩ := hr
    replace hr := Arm.bind_inv hr; obtain ⟨h1, s2, e2, hr⟩ := hr
    exact Py.loop_inv (fun (h : Hist I α) (_ : (I → S) × W) => Multiple cfg.arms h) (fun bd (_ : (I → S) × W) => Post bd)
      (fun h s h' s' hi he => key h s s' _ hi he) (fun h s r s' hi he => key h s s' _ hi he) fuel _ _
      (Longer.multiple h0 (forEach_longer (fun _ _ _ _ _ e => updateRecord_longer e) e2) (updateRecord_forEach_cum e2)) _ _ hr

/-! ## Successive elimination -/

theorem eliminate_filter {h : Hist I α} {cands next : List I} (hr : eliminate h cands = .ok next) : ∃ p : I → Bool, next = cands.filter p := by
  unfold eliminate at hr
  simp only [Bind.bind, Except.bind] at hr
  split at hr
  · simp at hr
  split at hr
  · simp at hr
  split at hr
  · simp at hr
  split at hr
  · simp at hr
  rename_i m _
  split at hr
  · simp at hr
  rename_i ls hls
  have hmap : ∀ (cs : List I) (ls : List (Fl α)), cs.mapM (fun a => lastOf (h.lcb a)) = .ok ls → ls = cs.map fun a => ((h.lcb a).getLast?).getD .nan := by
    clear hr hls
    intro cs
    induction cs with
    | nil =>
      intro ls hls
      simp only [List.mapM_nil, pure, Except.pure, Except.ok.injEq] at hls
      subst hls; rfl
    | cons a l ih =>
      intro ls hls
      rw [List.mapM_cons] at hls
      simp only [Bind.bind, Except.bind] at hls
      split at hls
      · simp at hls
      rename_i x hx
      split at hls
      · simp at hls
      rename_i xs hxs
      simp only [pure, Except.pure, Except.ok.injEq] at hls
      rw [← hls, List.map_cons, ← ih _ hxs]
      congr 1
      unfold lastOf at hx
      split at hx
      · simp at hx
      · rename_i y hy
        rw [hy]
        simpa using hx.symm
  simp only [pure, Except.pure, Except.ok.injEq] at hr
  rw [hmap _ _ hls] at hr
  refine ⟨fun a => (((h.lcb a).getLast?).getD .nan).lt m, ?_⟩
  rw [← hr, List.map_map]
  exact ExpData.filterMask_eq_filter _ _

theorem setLast_cum_total (n : Nat) (l : List I) (h : Hist I α) :
    (l.foldl (fun h a => setLastSample n a h) h).cum = h.cum ∧ (l.foldl (fun h a => setLastSample n a h) h).total = h.total := by
  induction l generalizing h with
  | nil => exact ⟨rfl, rfl⟩
  | cons a l ih => exact ih _

/-- **C111** Successive elimination: an arm that a run returns alone within a limit that is not negative is listed once.  (No
assumption on the intervals.) -/
theorem C111_successive_elimination (hr : seRun env ops cfg all fuel (heap, w) = (.ok (some bd), s')) (hL : cfg.sampleLimit = some L)
    (h0 : L.lt (.fin 0) = false) (hin : EndsWithin L bd) : bd.best.length ≤ 1 ∧ ∀ b ∈ bd.best, cfg.arms.count b = 1 := by
  let Inv : Hist I α × List I → Prop := fun st =>
    ((st.1.cum = [] ∧ st.1.total = 0) ∨ st.1.cum.getLast? = some st.1.total) ∧ ∀ b ∈ st.2, st.2.count b = cfg.arms.count b
  let Post : BanditData I α → Prop := fun bd => EndsWithin L bd → bd.best.length ≤ 1 ∧ ∀ b ∈ bd.best, cfg.arms.count b = 1
  have one : ∀ l : List I, l.length ≤ 1 → (∀ b ∈ l, l.count b = cfg.arms.count b) → l.length ≤ 1 ∧ ∀ b ∈ l, cfg.arms.count b = 1 := by
    refine fun l hl hc => ⟨hl, fun b hb => ?_⟩
    have h1 := hc b hb
    have h2 : 0 < l.count b := List.count_pos_iff.2 hb
    have h3 : l.count b ≤ l.length := List.count_le_length
    omega
  have key : ∀ (st : Hist I α × List I) (s s' : (I → S) × W) (x : (Hist I α × List I) ⊕ BanditData I α), Inv st →
      seRound env ops cfg all st s = (.ok x, s') → Sum.elim Inv Post x := by
    intro st s s' x hi he
    unfold seRound at he
    split at he
    · rename_i hlen
      obtain ⟨rfl, rfl⟩ := pure_ok he
      exact fun _ => one _ hlen hi.2
    replace he := Arm.bind_inv he; obtain ⟨o, s3, e3, he⟩ := he
    obtain ⟨q3, rfl⟩ := lift_ok e3
    obtain ⟨L', hL', ho⟩ := overLimit_ok q3
    rw [hL] at hL'
    cases hL'
    split at he
    · rename_i hot
      replace he := Arm.bind_inv he; obtain ⟨⟨hp, w1⟩, s4, e4, he⟩ := he
      obtain ⟨rfl, rfl⟩ := get_ok e4
      dsimp only at he
      replace he := Arm.bind_inv he; obtain ⟨best, s5, e5, he⟩ := he
      obtain ⟨q5, rfl⟩ := lift_ok e5
      obtain ⟨rfl, rfl⟩ := pure_ok he
      intro hin
      have : L.lt (.fin (st.1.total : α)) = false := by
        rcases hi.1 with h | h
        · rw [h.2, Nat.cast_zero]; exact h0
        · exact within_total h hin
      rw [ho, hot] at this
      cases this
    · replace he := Arm.bind_inv he; obtain ⟨_, s4, -, he⟩ := he
      dsimp only at he
      replace he := Arm.bind_inv he; obtain ⟨h1, s5, e5, he⟩ := he
      replace he := Arm.bind_inv he; obtain ⟨next, s6, e6, he⟩ := he
      obtain ⟨q6, rfl⟩ := lift_ok e6
      obtain ⟨p, hp⟩ := eliminate_filter q6
      have hc : ∀ b ∈ next, next.count b = cfg.arms.count b := by
        intro b hb
        rw [hp, List.mem_filter] at hb
        rw [hp, List.count_filter hb.2]
        exact hi.2 b hb.1
      split at he
      · rename_i hlen
        obtain ⟨rfl, rfl⟩ := pure_ok he
        exact fun _ => one _ hlen.le hc
      · obtain ⟨rfl, rfl⟩ := pure_ok he
        obtain ⟨g1, g2⟩ := record_forEach_total e5
        obtain ⟨f1, f2⟩ := setLast_cum_total cfg.unitsPerRound st.2 h1
        refine ⟨.inr ?_, hc⟩
        rw [f1, f2, g1, g2]
        exact addSamples_last _ _
  unfold seRun at hr
  exact Py.loop_inv (fun st _ => Inv st) (fun bd _ => Post bd) (fun h s h' s' hi he => key h s s' _ hi he) (fun h s r s' hi he => key h s s' _ hi he)
    fuel _ _ ⟨.inl ⟨rfl, rfl⟩, fun _ _ => rfl⟩ _ _ hr hin

/-- The updates of the arms of the running example keep the order of the intervals of a script that never changes. -/
def constOps : ArmOps (Fl ℚ × Fl ℚ × Fl ℚ) Nat Int ℚ where
  update := fun _ _ s => (.ok (s.1.1, s.1.2.1), s.1, s.2 + 1)
  ci := fun s => (some s.1, some s.2.1)
  varEst := fun s => some s.2.2
  cost := fun _ => .fin 1
  numUnits := fun _ => 0
  reset := id

/-- two arms with well separated intervals -/
def twoArms : Nat → Fl ℚ × Fl ℚ × Fl ℚ
  | 0 => ln 0 1 (1 / 2)
  | _ => ln 5 6 (11 / 2)

theorem constOps_proper (a : Nat) : Proper constOps (twoArms a) := by
  intro l u hl hu
  right
  cases hl
  cases hu
  rcases a with _ | a
  · decide +kernel
  · show ((Fl.fin 1).mul (Fl.fin 5)).le ((Fl.fin (1 : ℚ)).mul (Fl.fin 6)) = true
    decide +kernel

/-- non-vacuity: with the best arm listed once the runs end after a round; with every arm listed twice they never do; with the
best arm listed twice successive elimination goes on to its limit and returns it twice -/
example : (∃ bd s', uniformRun demoEnv constOps ⟨[0, 1, 1], .fin (1 / 10), .fin 0, none, some .pinf, 2⟩ none 10 (twoArms, 0) = (.ok (some bd), s') ∧
      (bd.best = [0] ∧ bd.cum = [6] ∧ (bd.lcb 0).length = 1 ∧ (bd.lcb 1).length = 2 : Bool) = true) ∧
    (∀ fuel bd s', uniformRun demoEnv constOps ⟨[0, 1, 0, 1], .fin (1 / 10), .fin 0, none, some .pinf, 2⟩ none fuel (twoArms, 0) ≠ (.ok (some bd), s')) ∧
    (∃ bd s', seRun demoEnv constOps ⟨[0, 1, 1], .fin (1 / 10), .fin 0, none, some (.fin 50), 2⟩ none 10 (twoArms, 0) = (.ok (some bd), s') ∧ (bd.best = [0] ∧ bd.cum = [6] : Bool) = true) ∧
    (∃ bd s', seRun demoEnv constOps ⟨[0, 1, 0], .fin (1 / 10), .fin 0, none, some (.fin 20), 2⟩ none 10 (twoArms, 0) = (.ok (some bd), s') ∧
      (bd.best = [0, 0] ∧ bd.cum = [6, 10, 14, 18, 22] : Bool) = true) := by
  refine ⟨returned _ (by decide +kernel), fun fuel bd s' => ?_, returned _ (by decide +kernel), returned _ (by decide +kernel)⟩
  exact (C111_never (by decide +kernel) (fun _ _ _ _ h => h) (fun a _ => constOps_proper a) rfl (by decide)).1

end Bandit
end Verif
