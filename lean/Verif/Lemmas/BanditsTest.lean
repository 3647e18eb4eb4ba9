import Verif.Spec.BanditsTest
import Verif.Lemmas.Narrow
import Verif.Lemmas.Safe

/-!
# Lemmas: rounds of the bandits with arms of constant estimates
-/

set_option linter.unusedSectionVars false
set_option linter.unusedSimpArgs false

namespace Verif
namespace Bandit
variable {I W β α : Type} [Field α] [LinearOrder α] [IsStrictOrderedRing α] [DecidableEq I]

/-- the heap in which arm `a` has seen `n a` units -/
def constHeap (v : I → α) (wd : I → ℕ → Fl α) (n : I → ℕ) : I → ConstantArm α := fun a =>
  if n a = 0 then ConstantArm.new (v a) (wd a) else ⟨v a, wd a, n a, ((Fl.fin (v a)).sub (wd a (n a)), (Fl.fin (v a)).add (wd a (n a))), 1⟩

variable {v : I → α} {wd : I → ℕ → Fl α} {w : I → ℕ → α} {n : I → ℕ}

theorem const_start : (fun a => ConstantArm.new (v a) (wd a)) = constHeap v wd fun _ => 0 := by
  funext a; simp [constHeap]

theorem const_update {u : ℕ} (hu : 0 < u) (a : I) : Function.update (constHeap v wd n) a ((constHeap v wd n a).update u) = constHeap v wd (Function.update n a (n a + u)) := by
  funext b
  by_cases h : b = a
  · subst h
    rw [Function.update_self]
    have h1 : n b + u ≠ 0 := by omega
    by_cases h0 : n b = 0
    · simp [constHeap, h0, ConstantArm.update, ConstantArm.new, Function.update_self, hu.ne']
    · simp [constHeap, h0, ConstantArm.update, Function.update_self, hu.ne', h1]
  · rw [Function.update_of_ne h]
    simp [constHeap, Function.update_of_ne h]

/-- widths are numbers -/
def Widths (wd : I → ℕ → Fl α) (w : I → ℕ → α) : Prop := ∀ a m, 0 < m → wd a m = .fin (w a m)

theorem one_fin (x : α) : (Fl.fin (1 : α)).mul (.fin x) = .fin x := by simp [Fl.mul]

theorem const_vals (hw : Widths wd w) {a : I} (h : 0 < n a) :
    (ConstantArm.ops (W := W) (β := β)).ci (constHeap v wd n a) = (some (.fin (v a - w a (n a))), some (.fin (v a + w a (n a)))) ∧
    (ConstantArm.ops (W := W) (β := β)).varEst (constHeap v wd n a) = some (.fin (v a)) ∧ (ConstantArm.ops (W := W) (β := β)).cost (constHeap v wd n a) = .fin 1 := by
  simp [ConstantArm.ops, constHeap, h.ne', hw a _ h, Fl.sub, Fl.add, Fl.neg, sub_eq_add_neg]

theorem const_V (hw : Widths wd w) {a : I} (h : 0 < n a) : lcbV (ConstantArm.ops (W := W) (β := β)) (constHeap v wd n) a = .fin (v a - w a (n a)) ∧
    ucbV (ConstantArm.ops (W := W) (β := β)) (constHeap v wd n) a = .fin (v a + w a (n a)) ∧ varV (ConstantArm.ops (W := W) (β := β)) (constHeap v wd n) a = .fin (v a) := by
  obtain ⟨h1, h2, h3⟩ := const_vals (W := W) (β := β) (v := v) hw h
  simp [lcbV, ucbV, varV, h1, h2, h3, one_fin]

/-- `h` with the current values of the arms of `l` appended -/
def push (v : I → α) (w : I → ℕ → α) (n k : I → ℕ) (l : List I) (h : Hist I α) : Hist I α :=
  { h with
    lcb := fun a => if a ∈ l then h.lcb a ++ [.fin (v a - w a (n a))] else h.lcb a
    ucb := fun a => if a ∈ l then h.ucb a ++ [.fin (v a + w a (n a))] else h.ucb a
    var := fun a => if a ∈ l then h.var a ++ [.fin (v a)] else h.var a
    samples := fun a => if a ∈ l then h.samples a ++ [k a] else h.samples a }

theorem record_const (hw : Widths wd w) {a : I} (h : 0 < n a) (k : I → ℕ) (x : Hist I α) (s : W) :
    record (ConstantArm.ops (β := β)) k a x (constHeap v wd n, s) = (.ok (push v w n k [a] x), constHeap v wd n, s) := by
  obtain ⟨h1, h2, h3⟩ := const_vals (W := W) (β := β) (v := v) hw h
  unfold record
  simp only [h1, h2, h3, costTimes, one_fin, bind, Except.bind, pure, Except.pure, push, List.mem_singleton]
  congr 2
  congr 1 <;> (funext b; by_cases hb : b = a <;> simp [Function.update_apply, hb])

theorem push_push {a : I} {l : List I} (ha : a ∉ l) {n n' : I → ℕ} (hn : n' a = n a) (k : I → ℕ) (x : Hist I α) :
    push v w n' k l (push v w n k [a] x) = push v w n' k (a :: l) x := by
  unfold push
  congr 1 <;>
  · funext b
    by_cases hb : b = a
    · subst hb
      simp [ha, hn]
    · simp [hb]

theorem push_nil (k : I → ℕ) (x : Hist I α) : push v w n k [] x = x := by simp [push]

theorem record_all (hw : Widths wd w) (k : I → ℕ) : ∀ (l : List I), l.Nodup → (∀ a ∈ l, 0 < n a) → ∀ (x : Hist I α) (s : W),
    Py.forEach (record (ConstantArm.ops (β := β)) k) l x (constHeap v wd n, s) = (.ok (push v w n k l x), constHeap v wd n, s) := by
  intro l
  induction l with
  | nil => intro _ _ x s; rw [push_nil]; rfl
  | cons a l ih =>
    intro hnd hpos x s
    rw [List.nodup_cons] at hnd
    rw [Py.forEach_cons, Py.bind_apply, record_const hw (hpos a (by simp))]
    simp only
    rw [ih hnd.2 fun b hb => hpos b (by simp [hb]), push_push hnd.1 rfl]

theorem updateArm_const {u : ℕ} (hu : 0 < u) (a : I) {d : ExpData β} (hd : d.nUnits = u) (δ : Fl α) (s : W) :
    updateArm ConstantArm.ops a d δ (constHeap v wd n, s) = (.ok (), constHeap v wd (Function.update n a (n a + u)), s) := by
  unfold updateArm ConstantArm.ops
  simp only [hd, const_update hu, Except.map]

/-- `n` after the arms of `l` got `u` units each -/
def bump (n : I → ℕ) (u : ℕ) (l : List I) : I → ℕ := fun a => if a ∈ l then n a + u else n a

theorem bump_nil (u : ℕ) : bump n u [] = n := by
  funext b; simp [bump]

theorem bump_cons {a : I} {l : List I} (ha : a ∉ l) (u : ℕ) : bump (Function.update n a (n a + u)) u l = bump n u (a :: l) := by
  funext b
  by_cases hb : b = a
  · subst hb; simp [bump, ha]
  · simp [bump, hb, Function.update_of_ne hb]

theorem updateRecord_all (hw : Widths wd w) {cfg : BanditCfg I α} (hu : 0 < cfg.unitsPerRound) {d : ExpData β} (hd : d.nUnits = cfg.unitsPerRound) :
    ∀ (l : List I), l.Nodup → ∀ (n : I → ℕ) (x : Hist I α) (s : W), Py.forEach (updateRecord ConstantArm.ops cfg d) l x (constHeap v wd n, s) =
      (.ok (push v w (bump n cfg.unitsPerRound l) (fun _ => cfg.unitsPerRound) l x), constHeap v wd (bump n cfg.unitsPerRound l), s) := by
  intro l
  induction l with
  | nil => intro _ n x s; rw [push_nil, bump_nil]; rfl
  | cons a l ih =>
    intro hnd n x s
    rw [List.nodup_cons] at hnd
    rw [Py.forEach_cons, Py.bind_apply]
    unfold updateRecord
    rw [Py.bind_apply, updateArm_const hu a hd]
    simp only
    rw [record_const hw (by simp; omega)]
    simp only
    have := ih hnd.2 (Function.update n a (n a + cfg.unitsPerRound)) (push v w (Function.update n a (n a + cfg.unitsPerRound)) (fun _ => cfg.unitsPerRound) [a] x) s
    unfold updateRecord at this
    rw [this, bump_cons hnd.1, push_push hnd.1 (by simp [bump])]

/-- pulls of distinct arms, with fresh units for each -/
theorem pull_all {env : BanditEnv W β} {cfg : BanditCfg I α} (hu : 0 < cfg.unitsPerRound) (hg : Gives env cfg.unitsPerRound) :
    ∀ (l : List I), l.Nodup → ∀ (n : I → ℕ) (s : W), ∃ s', Py.forEach (pull env ConstantArm.ops cfg none) l () (constHeap v wd n, s) =
      (.ok (), constHeap v wd (bump n cfg.unitsPerRound l), s') := by
  intro l
  induction l with
  | nil => intro _ n s; exact ⟨s, by rw [bump_nil]; rfl⟩
  | cons a l ih =>
    intro hnd n s
    rw [List.nodup_cons] at hnd
    obtain ⟨d, s1, e1, e2⟩ := hg s
    obtain ⟨s', h⟩ := ih hnd.2 (Function.update n a (n a + cfg.unitsPerRound)) s1
    refine ⟨s', ?_⟩
    rw [Py.forEach_cons, Py.bind_apply]
    unfold pull samplesFor generate
    rw [Py.bind_apply]
    simp only [e1]
    rw [updateArm_const hu a e2]
    simp only
    unfold pull samplesFor generate at h
    rw [h, bump_cons hnd.1]

variable {cfg : BanditCfg I α}

theorem const_isSome {arms : List I} : ∀ a ∈ arms, ((ConstantArm.ops (W := W) (β := β)).ci (constHeap v wd n a)).1.isSome = true ∧
    ((ConstantArm.ops (W := W) (β := β)).ci (constHeap v wd n a)).2.isSome = true ∧ ((ConstantArm.ops (W := W) (β := β)).varEst (constHeap v wd n a)).isSome = true := fun _ _ => ⟨rfl, rfl, rfl⟩

/-- the arms of lowest estimate -/
theorem lowest_const (hw : Widths wd w) (hn : ∀ a ∈ cfg.arms, 0 < n a) (hne : cfg.arms ≠ []) :
    lowestVarArms (ConstantArm.ops (W := W) (β := β)) cfg (constHeap v wd n) = .ok (cfg.arms.filter fun a => ∀ c ∈ cfg.arms, v a ≤ v c) := by
  have hv : ∀ a ∈ cfg.arms, varV (ConstantArm.ops (W := W) (β := β)) (constHeap v wd n) a = .fin (v a) := fun a ha => (const_V hw (hn a ha)).2.2
  obtain ⟨best, hb⟩ : ∃ best, lowestVarArms (ConstantArm.ops (W := W) (β := β)) cfg (constHeap v wd n) = .ok best := by
    unfold lowestVarArms
    rw [collectBounds_of const_isSome]
    simp only [bind, Except.bind, pure, Except.pure]
    generalize hl : cfg.arms.map (varV (ConstantArm.ops (W := W) (β := β)) (constHeap v wd n)) = vs
    cases vs with
    | nil => exact ⟨_, rfl⟩
    | cons x xs =>
      obtain ⟨m, hm⟩ := Fl.pyMin_exists (l := x :: xs) (by simp)
      simp [minMask, hm, bind, Except.bind, pure, Except.pure]
  rw [hb]
  congr 1
  rcases lowestVarArms_ok hb with ⟨h0, -⟩ | ⟨m, h1, rfl⟩
  · exact absurd h0 hne
  have hmem := Fl.pyMin_mem h1
  obtain ⟨b, hbm, rfl⟩ := List.mem_map.1 hmem
  have hmin : ∀ c ∈ cfg.arms, v b ≤ v c := by
    intro c hc
    have := Fl.pyMin_le h1 (by rw [hv b hbm]; simp) _ (List.mem_map_of_mem hc) (by rw [hv c hc]; simp)
    rw [hv b hbm, hv c hc] at this
    exact fin_le.1 this
  refine List.filter_congr fun a ha => ?_
  rw [hv a ha, hv b hbm, Bool.eq_iff_iff, fin_eq, decide_eq_true_eq]
  exact ⟨fun h c hc => h ▸ hmin c hc, fun h => le_antisymm (h b hbm) (hmin a ha)⟩

/-- the stopping test, when one arm is separated -/
theorem checkEnd_sep (hw : Widths wd w) (hn : ∀ a ∈ cfg.arms, 0 < n a) (hnd : cfg.arms.Nodup) (h2 : 2 ≤ cfg.arms.length) {tol : α} (htol : cfg.errorTol = .fin tol) (ht0 : 0 ≤ tol)
    (hw0 : ∀ a m, 0 ≤ w a m) {b : I} (hb : Separated cfg.arms tol v (fun a => w a (n a)) b) :
    checkEnd (ConstantArm.ops (W := W) (β := β)) cfg (constHeap v wd n) = .ok (true, [b]) := by
  obtain ⟨r, hr⟩ : ∃ r, checkEnd (ConstantArm.ops (W := W) (β := β)) cfg (constHeap v wd n) = .ok r := by
    unfold checkEnd
    rw [collectBounds_of const_isSome]
    exact endCondition_ready _ _ _ _ _ h2 (by simp) (by simp) (by simp)
  have hlow : ∀ a ∈ cfg.arms, a ≠ b → v b < v a := fun a ha hab => by
    have := hb.2 a ha hab
    have h1 := hw0 a (n a)
    have h2 := hw0 b (n b)
    linarith
  obtain ⟨e, best⟩ := r
  cases e with
  | false =>
    obtain ⟨b', hb', a, ha, hab, h1, -, h3⟩ := checkEnd_overlap hnd htol (fun a ha => (const_V hw (hn a ha)).1) (fun a ha => (const_V hw (hn a ha)).2.1) (fun a ha => (const_V hw (hn a ha)).2.2) hr
    have hbb : b' = b := by
      by_contra hne
      exact absurd (h1 b hb.1) (not_le.2 (hlow b' hb' hne))
    subst hbb
    have := hb.2 a ha hab
    linarith
  | true => rw [hr, checkEnd_unique hnd (fun a ha => (const_V hw (hn a ha)).2.2) hb.1 hlow hr]

/-- the stopping test, when no arm is separated -/
theorem checkEnd_not_sep (hw : Widths wd w) (hn : ∀ a ∈ cfg.arms, 0 < n a) (hnd : cfg.arms.Nodup) (h2 : 2 ≤ cfg.arms.length) {tol : α} (htol : cfg.errorTol = .fin tol)
    (hb : ¬ ∃ b, Separated cfg.arms tol v (fun a => w a (n a)) b) :
    ∃ best, checkEnd (ConstantArm.ops (W := W) (β := β)) cfg (constHeap v wd n) = .ok (false, best) := by
  obtain ⟨r, hr⟩ : ∃ r, checkEnd (ConstantArm.ops (W := W) (β := β)) cfg (constHeap v wd n) = .ok r := by
    unfold checkEnd
    rw [collectBounds_of const_isSome]
    exact endCondition_ready _ _ _ _ _ h2 (by simp) (by simp) (by simp)
  obtain ⟨e, best⟩ := r
  cases e with
  | false => exact ⟨best, hr⟩
  | true =>
    obtain ⟨b, m, h1, -, h3, h4, ⟨a, ha, -, rfl⟩, -⟩ := checkEnd_true hnd hr
    refine absurd ⟨b, h1, fun c hc hcb => ?_⟩ hb
    have h5 := h4 c hc hcb (by rw [(const_V hw (hn c hc)).1]; simp)
    rw [(const_V hw (hn c hc)).1, (const_V hw (hn a ha)).1, fin_le] at h5
    rw [(const_V hw (hn a ha)).1, (const_V hw (hn b h1)).2.1, htol] at h3
    simp only [Fl.sub, Fl.neg, Fl.add, fin_lt] at h3
    linarith

/-- the heap and the histories after `t` rounds in which arm `a` got `k a i` units in round `i` -/
structure After (arms : List I) (v : I → α) (w : I → ℕ → α) (k : I → ℕ → ℕ) (t : ℕ) (h : Hist I α) : Prop where
  var : ∀ a ∈ arms, h.var a = List.replicate t (.fin (v a))
  samples : ∀ a ∈ arms, h.samples a = (List.range t).map (k a)
  lcb : ∀ a ∈ arms, h.lcb a = (List.range t).map fun t => .fin (v a - w a (∑ i ∈ Finset.range (t + 1), k a i))
  ucb : ∀ a ∈ arms, h.ucb a = (List.range t).map fun t => .fin (v a + w a (∑ i ∈ Finset.range (t + 1), k a i))
  cum : h.cum = (List.range t).map fun t => (arms.map fun a => ∑ i ∈ Finset.range (t + 1), k a i).sum
  total : h.total = (arms.map fun a => ∑ i ∈ Finset.range t, k a i).sum

theorem After.zero (arms : List I) (k : I → ℕ → ℕ) : After arms v w k 0 Hist.empty := by
  constructor <;> simp [Hist.empty]

theorem After.push {arms : List I} {k : I → ℕ → ℕ} {t : ℕ} {h : Hist I α} (H : After arms v w k t h) {n : I → ℕ} (hn : ∀ a ∈ arms, n a = ∑ i ∈ Finset.range (t + 1), k a i) {k' : I → ℕ}
    (hk : ∀ a ∈ arms, k' a = k a t) {m : ℕ} (hm : m = (arms.map fun a => k a t).sum) : After arms v w k (t + 1) (addSamples m (push v w n k' arms h)) := by
  have htot : h.total + m = (arms.map fun a => ∑ i ∈ Finset.range (t + 1), k a i).sum := by
    rw [H.total, hm, ← List.sum_map_add]
    exact congrArg List.sum (List.map_congr_left fun a _ => (Finset.sum_range_succ _ _).symm)
  constructor
  · intro a ha; simp [addSamples, Bandit.push, ha, H.var a ha, List.replicate_succ']
  · intro a ha; simp [addSamples, Bandit.push, ha, H.samples a ha, List.range_succ, hk a ha]
  · intro a ha; simp [addSamples, Bandit.push, ha, H.lcb a ha, List.range_succ, hn a ha]
  · intro a ha; simp [addSamples, Bandit.push, ha, H.ucb a ha, List.range_succ, hn a ha]
  · simp [addSamples, Bandit.push, H.cum, List.range_succ, htot]
  · simp [addSamples, Bandit.push, htot]

theorem After.done {arms : List I} {k : I → ℕ → ℕ} {t : ℕ} {h : Hist I α} (H : After arms v w k t h) (best : List I) : ConstantHistory arms v w k t (Hist.done h best) :=
  ⟨H.var, H.samples, H.lcb, H.ucb, H.cum⟩

theorem overLimit_const {lim : Fl α} (h : cfg.sampleLimit = some lim) (m : ℕ) : overLimit cfg m = .ok (lim.lt (.fin (m : α))) := by
  simp [overLimit, h]

/-! ## Uniform sampling -/

/-- units of the arms after `t` rounds -/
def uniCount (cfg : BanditCfg I α) (t : ℕ) : I → ℕ := fun a => if a ∈ cfg.arms then cfg.unitsPerRound * t else 0

theorem uniCount_bump (t : ℕ) : bump (uniCount cfg t) cfg.unitsPerRound cfg.arms = uniCount cfg (t + 1) := by
  funext a
  by_cases h : a ∈ cfg.arms <;> simp [bump, uniCount, h, Nat.mul_add]

theorem uniform_round {env : BanditEnv W β} (hw : Widths wd w) (hg : Gives env cfg.unitsPerRound) (hu : 0 < cfg.unitsPerRound) (hnd : cfg.arms.Nodup) {lim : Fl α}
    (hlim : cfg.sampleLimit = some lim) (h2 : 2 ≤ cfg.arms.length) {tol : α} (htol : cfg.errorTol = .fin tol) (ht0 : 0 ≤ tol) (hw0 : ∀ a m, 0 ≤ w a m) {t : ℕ} {h : Hist I α}
    (H : After cfg.arms v w (fun _ _ => cfg.unitsPerRound) t h) (s : W) :
    ∃ h' s', After cfg.arms v w (fun _ _ => cfg.unitsPerRound) (t + 1) h' ∧
      (lim.lt (.fin ((cfg.arms.length * cfg.unitsPerRound * (t + 1) : ℕ) : α)) = true → uniformRound env ConstantArm.ops cfg none h (constHeap v wd (uniCount cfg t), s) =
        (.ok (.inr (Hist.done h' (cfg.arms.filter fun a => ∀ c ∈ cfg.arms, v a ≤ v c))), constHeap v wd (uniCount cfg (t + 1)), s')) ∧
      (lim.lt (.fin ((cfg.arms.length * cfg.unitsPerRound * (t + 1) : ℕ) : α)) = false →
        (∀ b, Separated cfg.arms tol v (fun a => w a (cfg.unitsPerRound * (t + 1))) b → uniformRound env ConstantArm.ops cfg none h (constHeap v wd (uniCount cfg t), s) =
          (.ok (.inr (Hist.done h' [b])), constHeap v wd (uniCount cfg (t + 1)), s')) ∧
        ((¬ ∃ b, Separated cfg.arms tol v (fun a => w a (cfg.unitsPerRound * (t + 1))) b) → uniformRound env ConstantArm.ops cfg none h (constHeap v wd (uniCount cfg t), s) =
          (.ok (.inl h'), constHeap v wd (uniCount cfg (t + 1)), s'))) := by
  obtain ⟨d, s1, e1, e2⟩ := hg s
  have hcount : ∀ a ∈ cfg.arms, uniCount cfg (t + 1) a = cfg.unitsPerRound * (t + 1) := fun a ha => by simp [uniCount, ha]
  have hpos : ∀ a ∈ cfg.arms, 0 < uniCount cfg (t + 1) a := fun a ha => by rw [hcount a ha]; positivity
  have hH := H.push (n := uniCount cfg (t + 1)) (k' := fun _ => cfg.unitsPerRound) (m := cfg.arms.length * cfg.unitsPerRound)
    (fun a ha => by rw [hcount a ha]; simp [mul_comm]) (fun _ _ => rfl) (by simp)
  have htot' : (addSamples (cfg.arms.length * cfg.unitsPerRound) (push v w (uniCount cfg (t + 1)) (fun _ => cfg.unitsPerRound) cfg.arms h)).total =
      cfg.arms.length * cfg.unitsPerRound * (t + 1) := by
    rw [hH.total]
    simp only [Finset.sum_const, Finset.card_range, smul_eq_mul, List.map_const', List.sum_replicate]
    ring
  have hsep : ∀ b, Separated cfg.arms tol v (fun a => w a (cfg.unitsPerRound * (t + 1))) b ↔ Separated cfg.arms tol v (fun a => w a (uniCount cfg (t + 1) a)) b := by
    intro b
    refine and_congr_right fun hb => forall_congr' fun c => forall_congr' fun hc => ?_
    simp only [hcount b hb, hcount c hc]
  refine ⟨_, s1, hH, fun ho => ?_, fun ho => ⟨fun b hb => ?_, fun hb => ?_⟩⟩
  all_goals
    have ho' : overLimit cfg (addSamples (cfg.arms.length * cfg.unitsPerRound) (push v w (uniCount cfg (t + 1)) (fun _ => cfg.unitsPerRound) cfg.arms h)).total =
        .ok (lim.lt (.fin ((cfg.arms.length * cfg.unitsPerRound * (t + 1) : ℕ) : α))) := by
      rw [overLimit_const hlim, htot']
    rw [ho] at ho'
    unfold uniformRound uniformSamples generate
    rw [Py.bind_apply]
    simp only [e1]
    rw [Py.bind_apply, updateRecord_all hw hu e2 _ hnd, uniCount_bump]
    simp only
    rw [Py.bind_apply, ho']
    simp only [Py.lift, Py.bind_apply, Py.get]
  · rw [lowest_const hw hpos (by rintro h0; simp [h0] at h2)]
    rfl
  · rw [checkEnd_sep hw hpos hnd h2 htol ht0 hw0 ((hsep b).1 hb)]
    rfl
  · obtain ⟨best, hbest⟩ := checkEnd_not_sep (W := W) (β := β) hw hpos hnd h2 htol (v := v) (fun ⟨b, h⟩ => hb ⟨b, (hsep b).2 h⟩)
    rw [hbest]
    rfl

end Bandit
end Verif
