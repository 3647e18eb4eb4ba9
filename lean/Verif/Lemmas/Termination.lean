import Verif.Spec.Termination
import Verif.Lemmas.Narrow
import Mathlib.Order.Filter.AtTopBot.Basic

/-!
# Runs that go on for ever
-/

set_option linter.unusedSectionVars false
set_option linter.unusedSimpArgs false

namespace Verif

namespace Py
variable {σ H R : Type}

/-- the states of a loop that never ends -/
theorem loop_forever {body : H → Py σ (H ⊕ R)} (h : H) (s : σ) (hrun : ∀ n, ∃ s', Py.loop body n h s = (.ok none, s')) :
    ∃ f : Nat → H × σ, f 0 = (h, s) ∧ (∀ n, body (f n).1 (f n).2 = (.ok (.inl (f (n + 1)).1), (f (n + 1)).2)) ∧
      ∀ n, Py.loop body n h s = (.ok none, (f n).2) := by
  have step : ∀ (h : H) (s : σ), (∀ n, ∃ s', Py.loop body n h s = (.ok none, s')) →
      ∃ p : H × σ, body h s = (.ok (.inl p.1), p.2) ∧ (∀ n, ∃ s', Py.loop body n p.1 p.2 = (.ok none, s')) ∧
        ∀ n, Py.loop body (n + 1) h s = Py.loop body n p.1 p.2 := by
    intro h s hrun
    obtain ⟨s', h1⟩ := hrun 1
    unfold Py.loop at h1
    obtain ⟨x, s1, e1, e2⟩ := Arm.bind_inv h1
    cases x with
    | inr r => simp [pure_apply] at e2
    | inl h' =>
      have hn : ∀ n, Py.loop body (n + 1) h s = Py.loop body n h' s1 := by
        intro n
        rw [Py.loop, bind_apply, e1]
      exact ⟨(h', s1), e1, fun n => by obtain ⟨s', hs⟩ := hrun (n + 1); exact ⟨s', by rw [← hn]; exact hs⟩, hn⟩
  choose next n1 n2 n3 using step
  let Good := {p : H × σ // ∀ n, ∃ s', Py.loop body n p.1 p.2 = (.ok none, s')}
  let f : Nat → Good := fun n => Nat.rec (motive := fun _ => Good) ⟨(h, s), hrun⟩
    (fun _ p => ⟨next p.1.1 p.1.2 p.2, n2 _ _ p.2⟩) n
  refine ⟨fun n => (f n).1, rfl, fun n => n1 _ _ (f n).2, ?_⟩
  have key : ∀ n k, Py.loop body (k + n) h s = Py.loop body k (f n).1.1 (f n).1.2 := by
    intro n
    induction n with
    | zero => intro k; rfl
    | succ n ih =>
      intro k
      rw [show k + (n + 1) = (k + 1) + n by omega, ih (k + 1)]
      exact n3 _ _ (f n).2 k
  intro n
  have := key n 0
  rw [Nat.zero_add] at this
  rw [this]
  rfl

end Py

namespace Bandit
variable {I S W β α : Type} [Field α] [LinearOrder α] [IsStrictOrderedRing α] [DecidableEq I]
variable {env : BanditEnv W β} {ops : ArmOps S W β α} {cfg : BanditCfg I α} {all : Option (ExpData β)}

theorem Pulls.counts {K : S → Nat} (hK : Counts ops K) {ps : List (PullRec I β α)} {h h' : I → S} (hp : Pulls ops ps h h') (a : I) :
    K (h' a) = K (h a) + (ps.map (·.arm)).count a := by
  induction hp with
  | nil h => simp
  | @cons p ps h h' w w' r s' h1 h2 ih =>
    rw [ih, List.map_cons, List.count_cons]
    by_cases hpa : p.arm = a
    · subst hpa
      rw [Function.update_self, hK _ _ _ _ _ _ _ h1]
      simp; omega
    · rw [Function.update_of_ne (fun h => hpa h.symm)]
      simp [hpa]

theorem Pulls.frame' {ps : List (PullRec I β α)} {h h' : I → S} (hp : Pulls ops ps h h') (a : I)
    (ha : a ∉ ps.map (·.arm)) : h' a = h a := by
  induction hp with
  | nil h => rfl
  | @cons p ps h h' w w' r s' h1 h2 ih =>
    simp only [List.map_cons, List.mem_cons, not_or] at ha
    rw [ih ha.2, Function.update_of_ne ha.1]

/-- one round of the uniform algorithm after which it goes on -/
theorem uniform_step (hnd : cfg.arms.Nodup) {h h' : Hist I α} {s s' : (I → S) × W}
    (hr : uniformRound env ops cfg all h s = (.ok (.inl h'), s')) :
    ∃ ps, ps.map (·.arm) = cfg.arms ∧ (∀ p ∈ ps, p.level = level cfg) ∧ Pulls ops ps s.1 s'.1 ∧ ∃ best, checkEnd ops cfg s'.1 = .ok (false, best) := by
  unfold uniformRound at hr
  replace hr := Arm.bind_inv hr; obtain ⟨d, s1, e1, hr⟩ := hr
  have es := uniformSamples_ok e1
  replace hr := Arm.bind_inv hr; obtain ⟨h', s2, e2, hr⟩ := hr
  obtain ⟨f1, f2, f3, f4, f5, f6⟩ := updateRecord_forEach hnd e2
  rw [es] at f1
  dsimp only at hr
  replace hr := Arm.bind_inv hr; obtain ⟨over, s3, e3, hr⟩ := hr
  obtain ⟨q3, rfl⟩ := lift_ok e3
  replace hr := Arm.bind_inv hr; obtain ⟨⟨heap, w⟩, s4, e4, hr⟩ := hr
  obtain ⟨rfl, rfl⟩ := get_ok e4
  dsimp only at hr
  by_cases ho : over = true
  · rw [if_pos ho] at hr
    replace hr := Arm.bind_inv hr; obtain ⟨best, s5, e5, hr⟩ := hr
    have := (pure_ok hr).1
    cases this
  · rw [if_neg ho] at hr
    replace hr := Arm.bind_inv hr; obtain ⟨⟨ends, best⟩, s5, e5, hr⟩ := hr
    obtain ⟨q5, rfl⟩ := lift_ok e5
    dsimp only at hr
    by_cases he : ends = true
    · rw [if_pos he] at hr
      have := (pure_ok hr).1
      cases this
    · rw [if_neg he] at hr
      obtain ⟨-, rfl⟩ := pure_ok hr
      refine ⟨_, by simp [List.map_map, Function.comp_def], by simp +contextual, f1, best, ?_⟩
      rw [q5, show ends = false by simpa using he]

/-- one round of LUCB after which it goes on -/
theorem lucb_step (hnd : cfg.arms.Nodup) {h h' : Hist I α} {s s' : (I → S) × W}
    (hr : lucbRound env ops cfg all h s = (.ok (.inl h'), s')) :
    ∃ chosen s1, selectArms env ops cfg s = (.ok chosen, s1) ∧
      ∃ ps, ps.map (·.arm) = chosen ∧ (∀ p ∈ ps, p.level = level cfg) ∧ Pulls ops ps s.1 s'.1 ∧ ∃ best, checkEnd ops cfg s'.1 = .ok (false, best) := by
  unfold lucbRound at hr
  replace hr := Arm.bind_inv hr; obtain ⟨over, s3, e3, hr⟩ := hr
  obtain ⟨q3, rfl⟩ := lift_ok e3
  by_cases ho : over = true
  · rw [if_pos ho] at hr
    replace hr := Arm.bind_inv hr; obtain ⟨⟨heap, w⟩, s4, e4, hr⟩ := hr
    dsimp only at hr
    replace hr := Arm.bind_inv hr; obtain ⟨best, s5, e5, hr⟩ := hr
    have := (pure_ok hr).1
    cases this
  · rw [if_neg ho] at hr
    replace hr := Arm.bind_inv hr; obtain ⟨chosen, s4, e4, hr⟩ := hr
    obtain ⟨c1, c2, c3⟩ := selectArms_ok e4
    replace hr := Arm.bind_inv hr; obtain ⟨⟨⟩, s5, e5, hr⟩ := hr
    obtain ⟨ps, p1, p2, p3⟩ := pull_forEach e5
    rw [c1] at p3
    replace hr := Arm.bind_inv hr; obtain ⟨h', s6, e6, hr⟩ := hr
    obtain ⟨rfl, f3, f4, f5, f6⟩ := record_forEach hnd e6
    dsimp only at hr
    replace hr := Arm.bind_inv hr; obtain ⟨⟨heap, w⟩, s7, e7, hr⟩ := hr
    obtain ⟨rfl, rfl⟩ := get_ok e7
    dsimp only at hr
    replace hr := Arm.bind_inv hr; obtain ⟨⟨ends, best⟩, s5, e5, hr⟩ := hr
    obtain ⟨q5, rfl⟩ := lift_ok e5
    dsimp only at hr
    by_cases he : ends = true
    · rw [if_pos he] at hr
      have := (pure_ok hr).1
      cases this
    · rw [if_neg he] at hr
      obtain ⟨-, rfl⟩ := pure_ok hr
      refine ⟨chosen, s4, e4, ps, p1, p2, p3, best, ?_⟩
      rw [q5, show ends = false by simpa using he]

/-- one round of successive elimination after which it goes on -/
theorem se_step (hnd : cfg.arms.Nodup) {st st' : Hist I α × List I} {s s' : (I → S) × W} (hsub : st.2.Sublist cfg.arms)
    (hr : seRound env ops cfg all st s = (.ok (.inl st'), s')) :
    2 ≤ st.2.length ∧ ∃ ps, ps.map (·.arm) = st.2 ∧ (∀ p ∈ ps, p.level = level cfg) ∧ Pulls ops ps s.1 s'.1 ∧ ElimStep ops ⟨ps, s'.1⟩ st'.2 := by
  unfold seRound at hr
  by_cases hlen : st.2.length ≤ 1
  · rw [if_pos hlen] at hr
    have := (pure_ok hr).1
    cases this
  rw [if_neg hlen] at hr
  refine ⟨by omega, ?_⟩
  replace hr := Arm.bind_inv hr; obtain ⟨over, s3, e3, hr⟩ := hr
  obtain ⟨q3, rfl⟩ := lift_ok e3
  by_cases ho : over = true
  · rw [if_pos ho] at hr
    replace hr := Arm.bind_inv hr; obtain ⟨⟨heap, w⟩, s4, e4, hr⟩ := hr
    dsimp only at hr
    replace hr := Arm.bind_inv hr; obtain ⟨best, s5, e5, hr⟩ := hr
    have := (pure_ok hr).1
    cases this
  · rw [if_neg ho] at hr
    have hcnd : st.2.Nodup := hnd.sublist hsub
    replace hr := Arm.bind_inv hr; obtain ⟨⟨⟩, s5, e5, hr⟩ := hr
    obtain ⟨ps, p1, p2, p3⟩ := pull_forEach e5
    dsimp only at hr
    replace hr := Arm.bind_inv hr; obtain ⟨h', s6, e6, hr⟩ := hr
    obtain ⟨rfl, f3, f4, f5, f6⟩ := record_forEach hnd e6
    set u := cfg.unitsPerRound with hu
    set h'' := st.2.foldl (fun h a => setLastSample u a h) h' with hh''
    obtain ⟨g1, g2, g3, g4, g5, g6⟩ := setLast_fold u st.2 hcnd h'
    rw [← hh''] at g1 g2 g3 g4 g5 g6
    have hext : ∀ a ∈ cfg.arms, Extends ops s6.1 (if a ∈ ps.map (·.arm) then u else 0) st.1 h'' a := by
      intro a ha
      obtain ⟨l, uu, v, e1, e2, e3, e4, e5, e6, e7⟩ := f3 a ha
      refine ⟨l, uu, v, e1, e2, e3, by rw [g1]; exact e4, by rw [g2]; exact e5, by rw [g3]; exact e6, ?_⟩
      rw [g6, p1]
      simp only [addSamples] at e7
      split <;> simp [e7]
    replace hr := Arm.bind_inv hr; obtain ⟨next, s7, e7, hr⟩ := hr
    obtain ⟨q7, rfl⟩ := lift_ok e7
    have hel : ElimStep ops ⟨ps, s7.1⟩ next := by
      refine eliminate_ok (h0 := st.1) (fun a ha => ⟨_, hext a (hsub.subset ha)⟩) q7 ps p1
    by_cases hone : next.length = 1
    · rw [if_pos hone] at hr
      have := (pure_ok hr).1
      cases this
    · rw [if_neg hone] at hr
      obtain ⟨h0, rfl⟩ := pure_ok hr
      simp only [Sum.inl.injEq] at h0
      subst h0
      exact ⟨ps, p1, p2, p3, hel⟩

/-- a run that raises nothing and does not end goes on for ever -/
theorem goes_on {σ R : Type} {run : Nat → Py σ (Option R)} {start : σ} (h1 : NeverRaises run start) (h2 : ¬ Ends run start) (n : Nat) :
    ∃ s', run n start = (.ok none, s') := by
  rcases h : run n start with ⟨r, s'⟩
  rcases r with e | (_ | r)
  · exact absurd h (h1 n e s')
  · exact ⟨s', rfl⟩
  · exact absurd ⟨n, r, s', h⟩ h2

/-! ### values near the true ones -/

theorem Settled.fins {x e : α} {heap : I → S} {a : I} (h : Settled ops (heap a) x e) :
    ∃ l u v, lcbV ops heap a = .fin l ∧ ucbV ops heap a = .fin u ∧ varV ops heap a = .fin v ∧ |l - x| ≤ e ∧ |u - x| ≤ e ∧ |v - x| ≤ e := by
  obtain ⟨l, u, v, h1, h2, h3, h4⟩ := h
  exact ⟨l, u, v, by simp [lcbV, h1], by simp [ucbV, h2], by simp [varV, h3], h4⟩

theorem Settled.funs {θ : I → α} {e : α} {heap : I → S} {arms : List I} (h : ∀ a ∈ arms, Settled ops (heap a) (θ a) e) :
    ∃ l u v : I → α, ∀ a ∈ arms, lcbV ops heap a = .fin (l a) ∧ ucbV ops heap a = .fin (u a) ∧ varV ops heap a = .fin (v a) ∧
      |l a - θ a| ≤ e ∧ |u a - θ a| ≤ e ∧ |v a - θ a| ≤ e := by
  have key : ∀ a, ∃ t : α × α × α, a ∈ arms → lcbV ops heap a = .fin t.1 ∧ ucbV ops heap a = .fin t.2.1 ∧ varV ops heap a = .fin t.2.2 ∧
      |t.1 - θ a| ≤ e ∧ |t.2.1 - θ a| ≤ e ∧ |t.2.2 - θ a| ≤ e := by
    intro a
    by_cases ha : a ∈ arms
    · obtain ⟨l, u, v, hh⟩ := Settled.fins (h a ha)
      exact ⟨(l, u, v), fun _ => hh⟩
    · exact ⟨(0, 0, 0), fun h => absurd h ha⟩
  choose f hf using key
  exact ⟨_, _, _, hf⟩

/-- The stopping test does not fail if all values are close to the true ones. -/
theorem settled_ends {heap : I → S} (hnd : cfg.arms.Nodup) {τ : α} (htol : cfg.errorTol = .fin τ) (hτ : 0 ≤ τ) {θ : I → α} {e gap : α}
    (hs : ∀ a ∈ cfg.arms, Settled ops (heap a) (θ a) e) {b : I} (hb : BestBy cfg.arms θ gap b) (hgap : 2 * e + τ < gap) {best : List I} :
    checkEnd ops cfg heap ≠ .ok (false, best) := by
  intro h
  obtain ⟨l, u, v, hv⟩ := Settled.funs hs
  obtain ⟨c, hc, a, ha, hac, h1, h2, h3⟩ := checkEnd_overlap hnd htol (fun a ha => (hv a ha).1) (fun a ha => (hv a ha).2.1)
    (fun a ha => (hv a ha).2.2.1) h
  obtain ⟨-, -, -, c1, c2, c3⟩ := hv c hc
  rw [abs_le] at c1 c2 c3
  have hcb : c = b := by
    by_contra hne
    have := hb.2 c hc hne
    have := h1 b hb.1
    obtain ⟨-, -, -, b1, b2, b3⟩ := hv b hb.1
    rw [abs_le] at b1 b2 b3
    linarith
  subst hcb
  obtain ⟨-, -, -, a1, a2, a3⟩ := hv a ha
  rw [abs_le] at a1 a2 a3
  have := hb.2 a ha hac
  linarith

/-- An arm is dropped if its values and those of a better candidate are close to the true ones. -/
theorem settled_drops {r : RoundRec I S β α} {next : List I} (h : ElimStep ops r next) {θ : I → α} {e : α}
    (hs : ∀ a ∈ r.arms, Settled ops (r.heap a) (θ a) e) {a b : I} (ha : a ∈ r.arms) (hb : b ∈ r.arms) (hgap : θ b + 4 * e < θ a) :
    a ∉ next := by
  obtain ⟨l, u, v, hv⟩ := Settled.funs hs
  obtain ⟨lowest, m, h1, h2, rfl⟩ := h
  intro hm
  rw [List.mem_filter] at hm
  obtain ⟨c, hc, hcx⟩ := List.mem_map.mp (Fl.pyMin_mem h2)
  rw [List.mem_filter, Fl.eq_iff] at hc
  obtain ⟨al, au, av, a1, a2, a3⟩ := hv a ha
  obtain ⟨bl, bu, bv, b1, b2, b3⟩ := hv b hb
  obtain ⟨cl, cu, cv, c1, c2, c3⟩ := hv c hc.1
  have hlow := Fl.pyMin_le h1 (by rw [← hc.2.1, cv]; simp) _ (List.mem_map_of_mem hb) (by rw [bv]; simp)
  rw [← hc.2.1, cv, bv, fin_le] at hlow
  have hlt := hm.2
  rw [← hcx, cu, al, fin_lt] at hlt
  rw [abs_le] at a1 a2 a3 b1 b2 b3 c1 c2 c3
  linarith

/-- the number of updates of an arm that takes part in every round -/
theorem counts_all {K : S → Nat} (hK : Counts ops K) {heap : Nat → I → S} {a : I}
    (hp : ∀ n, ∃ ps, Pulls ops ps (heap n) (heap (n + 1)) ∧ a ∈ ps.map (·.arm)) (n : Nat) : n ≤ K (heap n a) := by
  induction n with
  | zero => omega
  | succ n ih =>
    obtain ⟨ps, h1, h2⟩ := hp n
    rw [Pulls.counts hK h1]
    have := List.count_pos_iff.mpr h2
    omega

end Bandit
end Verif
