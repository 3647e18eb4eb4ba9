import Verif.Lemmas.Bandits

/-!
# What a returned run looks like, for each algorithm
-/

set_option linter.unusedSectionVars false
set_option linter.unusedSimpArgs false

namespace Verif
namespace Bandit
variable {I S W β α : Type} [Field α] [LinearOrder α] [DecidableEq I]

/-- The facts common to all algorithms: the run is the sequence of rounds `rs`, recorded faithfully. -/
structure Ran (ops : ArmOps S W β α) (cfg : BanditCfg I α) (heap0 : I → S) (rs : List (RoundRec I S β α))
    (bd : BanditData I α) (heap' : I → S) : Prop where
  rounds : Rounds ops heap0 rs heap'
  faithful : Faithful ops cfg.arms cfg.unitsPerRound rs bd
  level : ∀ r ∈ rs, ∀ p ∈ r.pulls, p.level = level cfg

theorem Ran.empty (ops : ArmOps S W β α) (cfg : BanditCfg I α) (heap0 : I → S) :
    Ran ops cfg heap0 [] (Hist.done Hist.empty []) heap0 where
  rounds := .nil
  faithful := ⟨fun _ _ => rfl, fun _ _ => rfl, fun _ _ => rfl, fun _ _ => rfl, rfl⟩
  level := by simp

theorem Ran.best {ops : ArmOps S W β α} {cfg : BanditCfg I α} {heap0 : I → S} {rs : List (RoundRec I S β α)}
    {h : Hist I α} {b : List I} {heap' : I → S} (hr : Ran ops cfg heap0 rs (Hist.done h b) heap') (b' : List I) :
    Ran ops cfg heap0 rs (Hist.done h b') heap' :=
  ⟨hr.rounds, ⟨hr.faithful.lcb, hr.faithful.ucb, hr.faithful.var, hr.faithful.samples, hr.faithful.cum⟩, hr.level⟩

theorem Ran.snoc {ops : ArmOps S W β α} {cfg : BanditCfg I α} {heap0 heap heap' : I → S} {rs : List (RoundRec I S β α)}
    {h h' : Hist I α} {b : List I} (hr : Ran ops cfg heap0 rs (Hist.done h b) heap) (ps : List (PullRec I β α))
    (hp : Pulls ops ps heap heap') (hl : ∀ p ∈ ps, p.level = Bandit.level cfg)
    (he : ∀ a ∈ cfg.arms, Extends ops heap' (if a ∈ ps.map (·.arm) then cfg.unitsPerRound else 0) h h' a)
    (hc : h'.cum.length = h.cum.length + 1) :
    Ran ops cfg heap0 (rs ++ [⟨ps, heap'⟩]) (Hist.done h' b) heap' where
  rounds := .snoc hr.rounds (r := ⟨ps, heap'⟩) hp
  faithful := by
    have F := hr.faithful
    refine ⟨?_, ?_, ?_, ?_, ?_⟩
    · intro a ha
      obtain ⟨l, u, v, e1, e2, e3, e4, e5, e6, e7⟩ := he a ha
      have := F.lcb a ha
      simp only [Hist.done] at this ⊢
      rw [e4, List.map_append, this, List.map_append, List.map_cons, List.map_nil, List.map_cons, List.map_nil, e1]
    · intro a ha
      obtain ⟨l, u, v, e1, e2, e3, e4, e5, e6, e7⟩ := he a ha
      have := F.ucb a ha
      simp only [Hist.done] at this ⊢
      rw [e5, List.map_append, this, List.map_append, List.map_cons, List.map_nil, List.map_cons, List.map_nil, e2]
    · intro a ha
      obtain ⟨l, u, v, e1, e2, e3, e4, e5, e6, e7⟩ := he a ha
      have := F.var a ha
      simp only [Hist.done] at this ⊢
      rw [e6, List.map_append, this, List.map_append, List.map_cons, List.map_nil, List.map_cons, List.map_nil, e3]
    · intro a ha
      obtain ⟨l, u, v, e1, e2, e3, e4, e5, e6, e7⟩ := he a ha
      have := F.samples a ha
      simp only [Hist.done] at this ⊢
      rw [e7, this, List.map_append, List.map_cons, List.map_nil]
      rfl
    · have := F.cum
      simp only [Hist.done] at this ⊢
      rw [hc, this, List.length_append]; rfl
  level := by
    intro r hr'
    rcases List.mem_append.mp hr' with h1 | h1
    · exact hr.level r h1
    · simp only [List.mem_singleton] at h1
      subst h1
      exact hl

theorem range_succ_map {γ : Type} (f : Nat → γ) (n : Nat) : (List.range (n + 1)).map f = (List.range n).map f ++ [f n] := by
  rw [List.range_succ, List.map_append]; rfl

theorem overLimit_ok {cfg : BanditCfg I α} {t : Nat} {b : Bool} (h : overLimit cfg t = .ok b) :
    ∃ L, cfg.sampleLimit = some L ∧ L.lt (.fin (t : α)) = b := by
  unfold overLimit at h
  rcases hl : cfg.sampleLimit with _ | L
  · simp [hl] at h
  · simp only [hl, Except.ok.injEq] at h
    exact ⟨L, rfl, h⟩

theorem lift_ok {σ A : Type} {x : Except PyErr A} {s s' : σ} {a : A} (h : (Py.lift x : Py σ A) s = (.ok a, s')) :
    x = .ok a ∧ s' = s := by
  simp only [Py.lift_apply, Prod.mk.injEq] at h
  exact ⟨h.1, h.2.symm⟩

theorem get_ok {σ : Type} {s s' a : σ} (h : (Py.get : Py σ σ) s = (.ok a, s')) : a = s ∧ s' = s := by
  simp only [Py.get_apply, Prod.mk.injEq, Except.ok.injEq] at h
  exact ⟨h.1.symm, h.2.symm⟩

theorem pure_ok {σ A : Type} {s s' : σ} {a b : A} (h : (pure a : Py σ A) s = (.ok b, s')) : b = a ∧ s' = s := by
  simp only [Py.pure_apply, Prod.mk.injEq, Except.ok.injEq] at h
  exact ⟨h.1.symm, h.2.symm⟩

/-! ## Uniform -/

theorem uniformSamples_ok {env : BanditEnv W β} {ops : ArmOps S W β α} {cfg : BanditCfg I α} {all : Option (ExpData β)}
    {d : ExpData β} {s s' : (I → S) × W} (hr : uniformSamples env ops cfg all s = (.ok d, s')) : s'.1 = s.1 := by
  unfold uniformSamples at hr
  cases all with
  | none => simp only [generate, Prod.mk.injEq] at hr; rw [← hr.2]
  | some x =>
    rcases ha : cfg.arms with _ | ⟨a, l⟩
    · simp [ha, Py.raise_apply] at hr
    · simp only [ha, nextSlice, Prod.mk.injEq] at hr; rw [← hr.2]

/-- How a run of the uniform algorithm can end. -/
structure UniformEnd (ops : ArmOps S W β α) (cfg : BanditCfg I α) (heap0 heap' : I → S) (rs : List (RoundRec I S β α))
    (bd : BanditData I α) (L : Fl α) : Prop where
  ran : Ran ops cfg heap0 rs bd heap'
  nonempty : rs ≠ []
  arms : ∀ r ∈ rs, r.arms = cfg.arms
  cum : bd.cum = (List.range rs.length).map fun k => (k + 1) * (cfg.arms.length * cfg.unitsPerRound)
  limit : cfg.sampleLimit = some L
  within : ∀ c ∈ bd.cum.dropLast, L.lt (.fin (c : α)) = false
  exit : (L.lt (.fin ((rs.length * (cfg.arms.length * cfg.unitsPerRound) : Nat) : α)) = true ∧ lowestVarArms ops cfg heap' = .ok bd.best) ∨
    (L.lt (.fin ((rs.length * (cfg.arms.length * cfg.unitsPerRound) : Nat) : α)) = false ∧ checkEnd ops cfg heap' = .ok (true, bd.best))
  going : ∀ r ∈ rs.dropLast, ∃ best, checkEnd ops cfg r.heap = .ok (false, best)

/-- Invariant of the uniform loop. -/
def UniformInv (ops : ArmOps S W β α) (cfg : BanditCfg I α) (heap0 : I → S) (h : Hist I α) (s : (I → S) × W) : Prop :=
  ∃ rs, Ran ops cfg heap0 rs (Hist.done h []) s.1 ∧ (∀ r ∈ rs, r.arms = cfg.arms) ∧
    h.cum = ((List.range rs.length).map fun k => (k + 1) * (cfg.arms.length * cfg.unitsPerRound)) ∧
    h.total = rs.length * (cfg.arms.length * cfg.unitsPerRound) ∧
    (∀ c ∈ h.cum, ∃ L, cfg.sampleLimit = some L ∧ L.lt (.fin (c : α)) = false) ∧
    ∀ r ∈ rs, ∃ best, checkEnd ops cfg r.heap = .ok (false, best)

theorem uniformRound_ok {env : BanditEnv W β} {ops : ArmOps S W β α} {cfg : BanditCfg I α} {all : Option (ExpData β)}
    (hnd : cfg.arms.Nodup) {heap0 : I → S} {h : Hist I α} {s s' : (I → S) × W} {x : Hist I α ⊕ BanditData I α}
    (hi : UniformInv ops cfg heap0 h s) (hr : uniformRound env ops cfg all h s = (.ok x, s')) :
    Sum.elim (fun h' => UniformInv ops cfg heap0 h' s') (fun bd => ∃ rs L, UniformEnd ops cfg heap0 s'.1 rs bd L) x := by
  obtain ⟨rs, h1, h2, h3, h4, h5, h6⟩ := hi
  unfold uniformRound at hr
  replace hr := Arm.bind_inv hr; obtain ⟨d, s1, e1, hr⟩ := hr
  have es := uniformSamples_ok e1
  replace hr := Arm.bind_inv hr; obtain ⟨h', s2, e2, hr⟩ := hr
  obtain ⟨f1, f2, f3, f4, f5, f6⟩ := updateRecord_forEach hnd e2
  rw [es] at f1
  dsimp only at hr
  set n := cfg.arms.length * cfg.unitsPerRound with hn
  have hran : Ran ops cfg heap0 (rs ++ [⟨cfg.arms.map fun a => ⟨a, d, level cfg⟩, s2.1⟩]) (Hist.done (addSamples n h') []) s2.1 := by
    refine h1.snoc _ f1 (by simp +contextual) ?_ ?_
    · intro a ha
      have : a ∈ (cfg.arms.map fun a => (⟨a, d, level cfg⟩ : PullRec I β α)).map (·.arm) := by
        simpa [List.map_map, Function.comp_def] using ha
      rw [if_pos this]
      exact f3 a ha
    · simp [addSamples, f5]
  have htot : (addSamples n h').total = (rs.length + 1) * n := by
    simp only [addSamples, f6, h4]; ring
  have hcum : (addSamples n h').cum = (List.range (rs.length + 1)).map fun k => (k + 1) * n := by
    rw [range_succ_map, ← h3]
    simp only [addSamples, f5, f6, h4]
    congr 2; ring
  have harms : ∀ r ∈ rs ++ [⟨cfg.arms.map fun a => (⟨a, d, level cfg⟩ : PullRec I β α), s2.1⟩], r.arms = cfg.arms := by
    intro r hr
    rcases List.mem_append.mp hr with hr | hr
    · exact h2 r hr
    · simp only [List.mem_singleton] at hr
      subst hr
      simp [RoundRec.arms, List.map_map, Function.comp_def]
  replace hr := Arm.bind_inv hr; obtain ⟨over, s3, e3, hr⟩ := hr
  obtain ⟨q3, rfl⟩ := lift_ok e3
  obtain ⟨L, hL, hover⟩ := overLimit_ok q3
  rw [htot] at hover
  have hdrop : ∀ c ∈ (addSamples n h').cum.dropLast, L.lt (.fin (c : α)) = false := by
    intro c hc
    have : (addSamples n h').cum.dropLast = h.cum := by simp [addSamples, f5]
    rw [this] at hc
    obtain ⟨L', hL', h⟩ := h5 c hc
    rw [hL] at hL'
    cases hL'
    exact h
  replace hr := Arm.bind_inv hr; obtain ⟨⟨heap, w⟩, s4, e4, hr⟩ := hr
  obtain ⟨rfl, rfl⟩ := get_ok e4
  dsimp only at hr
  by_cases ho : over = true
  · rw [if_pos ho] at hr
    replace hr := Arm.bind_inv hr; obtain ⟨best, s5, e5, hr⟩ := hr
    obtain ⟨q5, rfl⟩ := lift_ok e5
    obtain ⟨rfl, rfl⟩ := pure_ok hr
    refine ⟨_, L, hran.best best, by simp, harms, ?_, hL, hdrop, Or.inl ⟨?_, q5⟩, by simpa using h6⟩
    · rw [List.length_append]; exact hcum
    · rw [List.length_append]; exact hover.trans ho
  · rw [if_neg ho] at hr
    replace hr := Arm.bind_inv hr; obtain ⟨⟨ends, best⟩, s5, e5, hr⟩ := hr
    obtain ⟨q5, rfl⟩ := lift_ok e5
    dsimp only at hr
    have hov : over = false := by simpa using ho
    by_cases he : ends = true
    · rw [if_pos he] at hr
      obtain ⟨rfl, rfl⟩ := pure_ok hr
      subst he
      refine ⟨_, L, hran.best best, by simp, harms, ?_, hL, hdrop, Or.inr ⟨?_, q5⟩, by simpa using h6⟩
      · rw [List.length_append]; exact hcum
      · rw [List.length_append]; exact hover.trans hov
    · rw [if_neg he] at hr
      obtain ⟨rfl, rfl⟩ := pure_ok hr
      have he' : ends = false := by simpa using he
      subst he'
      refine ⟨_, hran, harms, by rw [List.length_append]; exact hcum, by rw [List.length_append]; exact htot, ?_, ?_⟩
      swap
      · intro r hr
        rcases List.mem_append.mp hr with hr | hr
        · exact h6 r hr
        · simp only [List.mem_singleton] at hr
          subst hr
          exact ⟨_, q5⟩
      intro c hc
      refine ⟨L, hL, ?_⟩
      rw [hcum, range_succ_map, ← h3, List.mem_append, List.mem_singleton] at hc
      rcases hc with hc | rfl
      · exact hdrop c (by simpa [addSamples, f5] using hc)
      · exact hover.trans hov

/-- A returned run of the uniform algorithm. -/
theorem uniform_master {env : BanditEnv W β} {ops : ArmOps S W β α} {cfg : BanditCfg I α} {all : Option (ExpData β)}
    (hnd : cfg.arms.Nodup) {fuel : Nat} {heap0 : I → S} {w0 : W} {bd : BanditData I α} {s' : (I → S) × W}
    (hr : uniformRun env ops cfg all fuel (heap0, w0) = (.ok (some bd), s')) :
    ∃ rs L, UniformEnd ops cfg heap0 s'.1 rs bd L := by
  unfold uniformRun at hr
  exact Py.loop_inv (UniformInv ops cfg heap0) (fun bd s => ∃ rs L, UniformEnd ops cfg heap0 s.1 rs bd L)
    (fun h s h' s' hi he => uniformRound_ok hnd hi he) (fun h s r s' hi he => uniformRound_ok hnd hi he) fuel _ _
    ⟨[], Ran.empty _ _ _, by simp, rfl, by simp [Hist.empty], by simp [Hist.empty], by simp⟩ _ _ hr

/-! ## LUCB -/

theorem selectMask_get_mem (arms : List I) (mask : List Bool) (i : Fin (selectMask arms mask).length) :
    (selectMask arms mask).get i ∈ arms :=
  (ExpData.filterMask_sublist mask arms).subset (List.get_mem _ _)

theorem chooseMasked_ok {env : BanditEnv W β} {arms : List I} {mask : List Bool} {a : I} {s s' : (I → S) × W}
    (hr : chooseMasked env arms mask s = (.ok a, s')) : s'.1 = s.1 ∧ a ∈ selectMask arms mask := by
  obtain ⟨heap, w⟩ := s
  unfold chooseMasked at hr
  dsimp only at hr
  split at hr
  · simp only [Prod.mk.injEq, Except.ok.injEq] at hr
    obtain ⟨rfl, rfl⟩ := hr
    exact ⟨rfl, List.get_mem _ _⟩
  · simp at hr

theorem chooseTwo_ok {env : BanditEnv W β} {arms : List I} {l : List I} {s s' : (I → S) × W}
    (hr : chooseTwo env arms s = (.ok l, s')) :
    s'.1 = s.1 ∧ ∃ i j : Fin arms.length, i ≠ j ∧ l = [arms.get i, arms.get j] := by
  obtain ⟨heap, w⟩ := s
  unfold chooseTwo at hr
  dsimp only at hr
  split at hr
  · rename_i h
    simp only [Prod.mk.injEq, Except.ok.injEq] at hr
    obtain ⟨rfl, rfl⟩ := hr
    exact ⟨rfl, _, _, (env.choice2 arms.length h w).1.2, rfl⟩
  · simp at hr

theorem selectArms_ok {env : BanditEnv W β} {ops : ArmOps S W β α} {cfg : BanditCfg I α} {l : List I} {s s' : (I → S) × W}
    (hr : selectArms env ops cfg s = (.ok l, s')) :
    s'.1 = s.1 ∧ l.length = 2 ∧ ∀ a ∈ l, a ∈ cfg.arms := by
  unfold selectArms at hr
  replace hr := Arm.bind_inv hr; obtain ⟨⟨heap, w⟩, s1, e1, hr⟩ := hr
  obtain ⟨rfl, rfl⟩ := get_ok e1
  dsimp only at hr
  replace hr := Arm.bind_inv hr; obtain ⟨⟨ls, us, vs⟩, s2, e2, hr⟩ := hr
  obtain ⟨q2, rfl⟩ := lift_ok e2
  dsimp only at hr
  replace hr := Arm.bind_inv hr; obtain ⟨lowest, s3, e3, hr⟩ := hr
  obtain ⟨q3, rfl⟩ := lift_ok e3
  split at hr
  · obtain ⟨h1, i, j, hij, rfl⟩ := chooseTwo_ok hr
    exact ⟨h1, rfl, by intro a ha; simp only [List.mem_cons, List.not_mem_nil, or_false] at ha; rcases ha with rfl | rfl <;> exact List.get_mem _ _⟩
  · replace hr := Arm.bind_inv hr; obtain ⟨hu, s4, e4, hr⟩ := hr
    obtain ⟨q4, rfl⟩ := lift_ok e4
    replace hr := Arm.bind_inv hr; obtain ⟨ll, s5, e5, hr⟩ := hr
    obtain ⟨q5, rfl⟩ := lift_ok e5
    replace hr := Arm.bind_inv hr; obtain ⟨u, s6, e6, hr⟩ := hr
    obtain ⟨g1, g2⟩ := chooseMasked_ok e6
    replace hr := Arm.bind_inv hr; obtain ⟨l', s7, e7, hr⟩ := hr
    obtain ⟨g3, g4⟩ := chooseMasked_ok e7
    obtain ⟨rfl, rfl⟩ := pure_ok hr
    refine ⟨g3.trans g1, rfl, ?_⟩
    intro a ha
    simp only [List.mem_cons, List.not_mem_nil, or_false] at ha
    rcases ha with rfl | rfl
    · exact (ExpData.filterMask_sublist _ _).subset g2
    · exact (ExpData.filterMask_sublist _ _).subset g4

theorem Rounds.lastHeap' {ops : ArmOps S W β α} {h0 h : I → S} {rs : List (RoundRec I S β α)} (hr : Rounds ops h0 rs h)
    {r : RoundRec I S β α} (hl : rs.getLast? = some r) : r.heap = h := by
  cases hr with
  | nil => simp at hl
  | snoc h1 h2 => simp only [List.getLast?_append, List.getLast?_singleton] at hl; simp at hl; rw [hl]

/-- Consecutive rounds of LUCB are linked by `select_arms`, called on the arms as the first round left them. -/
def LucbLinks (env : BanditEnv W β) (ops : ArmOps S W β α) (cfg : BanditCfg I α) (rs : List (RoundRec I S β α)) : Prop :=
  ∀ i r r', rs[i]? = some r → rs[i + 1]? = some r' → ∃ w s', selectArms env ops cfg (r.heap, w) = (.ok r'.arms, s')

/-- How a run of LUCB can end; `r0` is the initial round. -/
structure LucbEnd (env : BanditEnv W β) (ops : ArmOps S W β α) (cfg : BanditCfg I α) (heap0 heap' : I → S) (r0 : RoundRec I S β α)
    (rs : List (RoundRec I S β α)) (bd : BanditData I α) (L : Fl α) : Prop where
  ran : Ran ops cfg heap0 (r0 :: rs) bd heap'
  first : r0.arms = cfg.arms
  arms : ∀ r ∈ rs, r.arms.length = 2 ∧ ∀ a ∈ r.arms, a ∈ cfg.arms
  cum : bd.cum = (List.range (rs.length + 1)).map fun k => cfg.arms.length * cfg.unitsPerRound + k * (2 * cfg.unitsPerRound)
  limit : cfg.sampleLimit = some L
  within : ∀ c ∈ bd.cum.dropLast, L.lt (.fin (c : α)) = false
  exit : (L.lt (.fin ((cfg.arms.length * cfg.unitsPerRound + rs.length * (2 * cfg.unitsPerRound) : Nat) : α)) = true ∧
      lowestVarArms ops cfg heap' = .ok bd.best) ∨
    (rs ≠ [] ∧ checkEnd ops cfg heap' = .ok (true, bd.best))
  going : ∀ r ∈ rs.dropLast, ∃ best, checkEnd ops cfg r.heap = .ok (false, best)
  links : LucbLinks env ops cfg (r0 :: rs)

/-- Invariant of the LUCB loop. -/
def LucbInv (env : BanditEnv W β) (ops : ArmOps S W β α) (cfg : BanditCfg I α) (heap0 : I → S) (h : Hist I α) (s : (I → S) × W) : Prop :=
  ∃ r0 rs, Ran ops cfg heap0 (r0 :: rs) (Hist.done h []) s.1 ∧ r0.arms = cfg.arms ∧
    (∀ r ∈ rs, r.arms.length = 2 ∧ ∀ a ∈ r.arms, a ∈ cfg.arms) ∧
    h.cum = ((List.range (rs.length + 1)).map fun k => cfg.arms.length * cfg.unitsPerRound + k * (2 * cfg.unitsPerRound)) ∧
    h.total = cfg.arms.length * cfg.unitsPerRound + rs.length * (2 * cfg.unitsPerRound) ∧
    (∀ c ∈ h.cum.dropLast, ∃ L, cfg.sampleLimit = some L ∧ L.lt (.fin (c : α)) = false) ∧
    (∀ r ∈ rs, ∃ best, checkEnd ops cfg r.heap = .ok (false, best)) ∧ LucbLinks env ops cfg (r0 :: rs)

theorem lucbRound_ok {env : BanditEnv W β} {ops : ArmOps S W β α} {cfg : BanditCfg I α} {all : Option (ExpData β)}
    (hnd : cfg.arms.Nodup) {heap0 : I → S} {h : Hist I α} {s s' : (I → S) × W} {x : Hist I α ⊕ BanditData I α}
    (hi : LucbInv env ops cfg heap0 h s) (hr : lucbRound env ops cfg all h s = (.ok x, s')) :
    Sum.elim (fun h' => LucbInv env ops cfg heap0 h' s') (fun bd => ∃ r0 rs L, LucbEnd env ops cfg heap0 s'.1 r0 rs bd L) x := by
  obtain ⟨r0, rs, h1, h0, h2, h3, h4, h5, h6, h7⟩ := hi
  unfold lucbRound at hr
  replace hr := Arm.bind_inv hr; obtain ⟨over, s3, e3, hr⟩ := hr
  obtain ⟨q3, rfl⟩ := lift_ok e3
  obtain ⟨L, hL, hover⟩ := overLimit_ok q3
  have hdrop : ∀ c ∈ h.cum.dropLast, L.lt (.fin (c : α)) = false := by
    intro c hc
    obtain ⟨L', hL', h⟩ := h5 c hc
    rw [hL] at hL'
    cases hL'
    exact h
  by_cases ho : over = true
  · rw [if_pos ho] at hr
    replace hr := Arm.bind_inv hr; obtain ⟨⟨heap, w⟩, s4, e4, hr⟩ := hr
    obtain ⟨rfl, rfl⟩ := get_ok e4
    dsimp only at hr
    replace hr := Arm.bind_inv hr; obtain ⟨best, s5, e5, hr⟩ := hr
    obtain ⟨q5, rfl⟩ := lift_ok e5
    obtain ⟨rfl, rfl⟩ := pure_ok hr
    refine ⟨r0, rs, L, h1.best best, h0, h2, h3, hL, hdrop, Or.inl ⟨?_, q5⟩, fun r hr => h6 r (List.dropLast_subset _ hr), h7⟩
    rw [← h4]; exact hover.trans ho
  · rw [if_neg ho] at hr
    have hov : over = false := by simpa using ho
    replace hr := Arm.bind_inv hr; obtain ⟨chosen, s4, e4, hr⟩ := hr
    obtain ⟨c1, c2, c3⟩ := selectArms_ok e4
    replace hr := Arm.bind_inv hr; obtain ⟨⟨⟩, s5, e5, hr⟩ := hr
    obtain ⟨ps, p1, p2, p3⟩ := pull_forEach e5
    rw [c1] at p3
    replace hr := Arm.bind_inv hr; obtain ⟨h', s6, e6, hr⟩ := hr
    obtain ⟨rfl, f3, f4, f5, f6⟩ := record_forEach hnd e6
    dsimp only at hr
    set n := 2 * cfg.unitsPerRound with hn
    have hran : Ran ops cfg heap0 (r0 :: rs ++ [⟨ps, s6.1⟩]) (Hist.done (addSamples n h') []) s6.1 := by
      refine h1.snoc _ p3 p2 ?_ ?_
      · intro a ha
        rw [p1]
        exact f3 a ha
      · simp [addSamples, f5]
    have htot : (addSamples n h').total = cfg.arms.length * cfg.unitsPerRound + (rs.length + 1) * n := by
      simp only [addSamples, f6, h4]; ring
    have hcum : (addSamples n h').cum = (List.range (rs.length + 1 + 1)).map fun k => cfg.arms.length * cfg.unitsPerRound + k * n := by
      rw [range_succ_map, ← h3]
      simp only [addSamples, f5, f6, h4]
      congr 2; ring
    have harms : ∀ r ∈ rs ++ [⟨ps, s6.1⟩], r.arms.length = 2 ∧ ∀ a ∈ r.arms, a ∈ cfg.arms := by
      intro r hr
      rcases List.mem_append.mp hr with hr | hr
      · exact h2 r hr
      · simp only [List.mem_singleton] at hr
        subst hr
        rw [RoundRec.arms, p1]
        exact ⟨c2, c3⟩
    have hdrop' : ∀ c ∈ (addSamples n h').cum.dropLast, L.lt (.fin (c : α)) = false := by
      intro c hc
      have : (addSamples n h').cum.dropLast = h.cum := by simp [addSamples, f5]
      rw [this, h3, range_succ_map] at hc
      rcases List.mem_append.mp hc with hc | hc
      · refine hdrop c ?_
        rw [h3, range_succ_map]; simpa using hc
      · simp only [List.mem_singleton] at hc
        rw [hc, ← h4]; exact hover.trans hov
    have hlinks : LucbLinks env ops cfg (r0 :: rs ++ [⟨ps, s6.1⟩]) := by
      intro i r r' hi hi'
      have hlt := (List.getElem?_eq_some_iff.mp hi').1
      rw [List.length_append, List.length_singleton] at hlt
      rw [List.getElem?_append_left (by omega)] at hi
      by_cases hl : i + 1 < (r0 :: rs).length
      · rw [List.getElem?_append_left hl] at hi'
        exact h7 i r r' hi hi'
      · have hl' : i + 1 = (r0 :: rs).length := by omega
        have e : r.heap = s3.1 := Rounds.lastHeap' h1.rounds (by rw [List.getLast?_eq_getElem?, ← hl', Nat.add_sub_cancel, hi])
        rw [hl', List.getElem?_concat_length, Option.some.injEq] at hi'
        subst hi'
        refine ⟨s3.2, s4, ?_⟩
        rw [e, RoundRec.arms, p1]
        exact e4
    replace hr := Arm.bind_inv hr; obtain ⟨⟨heap, w⟩, s7, e7, hr⟩ := hr
    obtain ⟨rfl, rfl⟩ := get_ok e7
    dsimp only at hr
    replace hr := Arm.bind_inv hr; obtain ⟨⟨ends, best⟩, s5, e5, hr⟩ := hr
    obtain ⟨q5, rfl⟩ := lift_ok e5
    dsimp only at hr
    rw [List.cons_append] at hran hlinks
    by_cases he : ends = true
    · rw [if_pos he] at hr
      obtain ⟨rfl, rfl⟩ := pure_ok hr
      subst he
      refine ⟨r0, _, L, hran.best best, h0, harms, ?_, hL, hdrop', Or.inr ⟨by simp, q5⟩, by simpa using h6, hlinks⟩
      rw [List.length_append]; exact hcum
    · rw [if_neg he] at hr
      obtain ⟨rfl, rfl⟩ := pure_ok hr
      have he' : ends = false := by simpa using he
      subst he'
      refine ⟨r0, _, hran, h0, harms, by rw [List.length_append]; exact hcum, by rw [List.length_append]; exact htot,
        fun c hc => ⟨L, hL, hdrop' c hc⟩, ?_, hlinks⟩
      intro r hr
      rcases List.mem_append.mp hr with hr | hr
      · exact h6 r hr
      · simp only [List.mem_singleton] at hr
        subst hr
        exact ⟨_, q5⟩

theorem lucbFirst_ok {env : BanditEnv W β} {cfg : BanditCfg I α} {all : Option (ExpData β)}
    {d : ExpData β} {s s' : (I → S) × W} (hr : lucbFirst env cfg all s = (.ok d, s')) : s'.1 = s.1 := by
  unfold lucbFirst at hr
  cases all with
  | none => simp only [generate, Prod.mk.injEq] at hr; rw [← hr.2]
  | some x => rw [(lift_ok hr).2]

theorem lucb_first {env : BanditEnv W β} {ops : ArmOps S W β α} {cfg : BanditCfg I α} {all : Option (ExpData β)}
    (hnd : cfg.arms.Nodup) {heap0 : I → S} {s s1 s2 : (I → S) × W} (hs : s.1 = heap0) {d : ExpData β} {h : Hist I α}
    (e1 : lucbFirst env cfg all s = (.ok d, s1)) (e2 : Py.forEach (updateRecord ops cfg d) cfg.arms Hist.empty s1 = (.ok h, s2)) :
    LucbInv env ops cfg heap0 (addSamples (cfg.arms.length * cfg.unitsPerRound) h) s2 := by
  have es := lucbFirst_ok e1
  obtain ⟨f1, f2, f3, f4, f5, f6⟩ := updateRecord_forEach hnd e2
  rw [es, hs] at f1
  have hran := (Ran.empty ops cfg heap0).snoc (h' := addSamples (cfg.arms.length * cfg.unitsPerRound) h) _ f1 (by simp +contextual)
    (by
      intro a ha
      have : a ∈ (cfg.arms.map fun a => (⟨a, d, level cfg⟩ : PullRec I β α)).map (·.arm) := by
        simpa [List.map_map, Function.comp_def] using ha
      rw [if_pos this]
      exact f3 a ha)
    (by simp [addSamples, f5])
  refine ⟨_, [], hran, ?_, by simp, ?_, ?_, ?_, by simp, fun i r r' _ h => by simp at h⟩
  · simp [RoundRec.arms, List.map_map, Function.comp_def]
  · simp [addSamples, f5, f6, Hist.empty]
  · simp [addSamples, f6, Hist.empty]
  · simp [addSamples, f5, Hist.empty]

/-- A returned run of LUCB. -/
theorem lucb_master {env : BanditEnv W β} {ops : ArmOps S W β α} {cfg : BanditCfg I α} {all : Option (ExpData β)}
    (hnd : cfg.arms.Nodup) {fuel : Nat} {heap0 : I → S} {w0 : W} {bd : BanditData I α} {s' : (I → S) × W}
    (hr : lucbRun env ops cfg all fuel (heap0, w0) = (.ok (some bd), s')) :
    ∃ r0 rs L, LucbEnd env ops cfg heap0 s'.1 r0 rs bd L := by
  unfold lucbRun at hr
  replace hr := Arm.bind_inv hr; obtain ⟨d, s1, e1, hr⟩ := hr
  replace hr := Arm.bind_inv hr; obtain ⟨h, s2, e2, hr⟩ := hr
  exact Py.loop_inv (LucbInv env ops cfg heap0) (fun bd s => ∃ r0 rs L, LucbEnd env ops cfg heap0 s.1 r0 rs bd L)
    (fun h s h' s' hi he => lucbRound_ok hnd hi he) (fun h s r s' hi he => lucbRound_ok hnd hi he) fuel _ _
    (lucb_first hnd rfl e1 e2) _ _ hr

end Bandit
end Verif
