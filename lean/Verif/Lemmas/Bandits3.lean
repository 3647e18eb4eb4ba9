import Verif.Lemmas.Bandits2

/-!
# What a returned run of successive elimination looks like
-/

set_option linter.unusedSectionVars false
set_option linter.unusedSimpArgs false

namespace Verif
namespace Bandit
variable {I S W β α : Type} [Field α] [LinearOrder α] [DecidableEq I]

/-- Cost-adjusted values of an arm in a heap (NaN stands for `None` here). -/
def lcbV (ops : ArmOps S W β α) (heap : I → S) (a : I) : Fl α := ((ops.ci (heap a)).1.map (ops.cost (heap a)).mul).getD .nan
def ucbV (ops : ArmOps S W β α) (heap : I → S) (a : I) : Fl α := ((ops.ci (heap a)).2.map (ops.cost (heap a)).mul).getD .nan
def varV (ops : ArmOps S W β α) (heap : I → S) (a : I) : Fl α := ((ops.varEst (heap a)).map (ops.cost (heap a)).mul).getD .nan

/-- The candidates `next` kept after the round `r`: those whose lower bound is below the least upper bound among the
sampled arms of lowest estimate. -/
def ElimStep (ops : ArmOps S W β α) (r : RoundRec I S β α) (next : List I) : Prop :=
  ∃ lowest m, Fl.pyMin (r.arms.map (varV ops r.heap)) = .ok lowest ∧
    Fl.pyMin ((r.arms.filter fun a => (varV ops r.heap a).eq lowest).map (ucbV ops r.heap)) = .ok m ∧
    next = r.arms.filter fun a => (lcbV ops r.heap a).lt m

theorem mapM_ok_of {γ δ : Type} (f : γ → Except PyErr δ) (g : γ → δ) (l : List γ) (h : ∀ a ∈ l, f a = .ok (g a)) :
    l.mapM f = .ok (l.map g) := by
  induction l with
  | nil => rfl
  | cons a l ih =>
    rw [List.mapM_cons, h a (by simp), ih fun b hb => h b (by simp [hb])]
    rfl

theorem eliminate_ok {ops : ArmOps S W β α} {heap : I → S} {h0 h : Hist I α} {cands next : List I}
    (hx : ∀ a ∈ cands, ∃ k, Extends ops heap k h0 h a) (hr : eliminate h cands = .ok next) (ps : List (PullRec I β α))
    (hps : ps.map (·.arm) = cands) : ElimStep ops ⟨ps, heap⟩ next := by
  have hv : cands.mapM (fun a => lastOf (h.var a)) = .ok (cands.map (varV ops heap)) := by
    apply mapM_ok_of
    intro a ha
    obtain ⟨k, l, u, v, e1, e2, e3, e4, e5, e6, e7⟩ := hx a ha
    simp [lastOf, e6, varV, e3]
  have hl : cands.mapM (fun a => lastOf (h.lcb a)) = .ok (cands.map (lcbV ops heap)) := by
    apply mapM_ok_of
    intro a ha
    obtain ⟨k, l, u, v, e1, e2, e3, e4, e5, e6, e7⟩ := hx a ha
    simp [lastOf, e4, lcbV, e1]
  unfold eliminate at hr
  rw [hv] at hr
  simp only [bind, Except.bind] at hr
  rcases hm : Fl.pyMin (cands.map (varV ops heap)) with e | lowest
  · simp [hm] at hr
  simp only [hm] at hr
  rw [List.map_map, show ((fun x => Fl.eq x lowest) ∘ varV ops heap) = fun a => (varV ops heap a).eq lowest from rfl,
    ExpData.filterMask_eq_filter] at hr
  have hu : (cands.filter fun a => (varV ops heap a).eq lowest).mapM (fun a => lastOf (h.ucb a)) =
      .ok ((cands.filter fun a => (varV ops heap a).eq lowest).map (ucbV ops heap)) := by
    apply mapM_ok_of
    intro a ha
    obtain ⟨k, l, u, v, e1, e2, e3, e4, e5, e6, e7⟩ := hx a (List.mem_filter.mp ha).1
    simp [lastOf, e5, ucbV, e2]
  rw [hu] at hr
  rcases hmu : Fl.pyMin ((cands.filter fun a => (varV ops heap a).eq lowest).map (ucbV ops heap)) with e | m
  · simp [hmu] at hr
  simp only [hmu, hl, pure, Except.pure, Except.ok.injEq, List.map_map] at hr
  refine ⟨lowest, m, by simpa [RoundRec.arms, hps] using hm, by simpa [RoundRec.arms, hps] using hmu, ?_⟩
  rw [← hr]
  change ExpData.filterMask (cands.map fun a => (lcbV ops heap a).lt m) cands = _
  rw [ExpData.filterMask_eq_filter]
  simp [RoundRec.arms, hps]

theorem setLast_fold (n : Nat) (l : List I) (hnd : l.Nodup) (h : Hist I α) :
    let h' := l.foldl (fun h a => setLastSample n a h) h
    h'.lcb = h.lcb ∧ h'.ucb = h.ucb ∧ h'.var = h.var ∧ h'.cum = h.cum ∧ h'.total = h.total ∧
    ∀ a, h'.samples a = if a ∈ l then (h.samples a).dropLast ++ [n] else h.samples a := by
  induction l generalizing h with
  | nil => simp
  | cons b l ih =>
    rw [List.nodup_cons] at hnd
    obtain ⟨i1, i2, i3, i4, i5, i6⟩ := ih hnd.2 (setLastSample n b h)
    refine ⟨i1, i2, i3, i4, i5, ?_⟩
    intro a
    rw [List.foldl_cons, i6]
    by_cases hab : a = b
    · subst hab
      simp [hnd.1, setLastSample]
    · simp [hab, setLastSample, Function.update_of_ne]

/-- The number of samples after the first `k` rounds. -/
def samplesAfter (u : Nat) (rs : List (RoundRec I S β α)) (k : Nat) : Nat := ((rs.take k).map fun r => r.arms.length * u).sum

/-- Consecutive rounds are linked by elimination, and the first one samples all arms. -/
structure SeChain (ops : ArmOps S W β α) (cfg : BanditCfg I α) (rs : List (RoundRec I S β α)) : Prop where
  first : ∀ r, rs[0]? = some r → r.arms = cfg.arms
  link : ∀ i r r', rs[i]? = some r → rs[i + 1]? = some r' → ElimStep ops r r'.arms
  two : ∀ r ∈ rs, 2 ≤ r.arms.length

/-- The candidates after the rounds `rs`. -/
def SeCands (ops : ArmOps S W β α) (cfg : BanditCfg I α) (rs : List (RoundRec I S β α)) (cands : List I) : Prop :=
  (rs = [] ∧ cands = cfg.arms) ∨ ∃ r, rs.getLast? = some r ∧ ElimStep ops r cands

/-- How a run of successive elimination can end. -/
structure SeEnd (ops : ArmOps S W β α) (cfg : BanditCfg I α) (heap0 heap' : I → S) (rs : List (RoundRec I S β α))
    (bd : BanditData I α) : Prop where
  ran : Ran ops cfg heap0 rs bd heap'
  chain : SeChain ops cfg rs
  cum : bd.cum = (List.range rs.length).map fun k => samplesAfter cfg.unitsPerRound rs (k + 1)
  within : ∀ c ∈ bd.cum.dropLast, ∃ L, cfg.sampleLimit = some L ∧ L.lt (.fin (c : α)) = false
  limit : rs ≠ [] → ∃ L, cfg.sampleLimit = some L
  exit : (bd.best.length ≤ 1 ∧ SeCands ops cfg rs bd.best) ∨
    ((∃ cands, 2 ≤ cands.length ∧ SeCands ops cfg rs cands) ∧
      (∃ L, cfg.sampleLimit = some L ∧ L.lt (.fin (samplesAfter cfg.unitsPerRound rs rs.length : α)) = true) ∧
      lowestVarArms ops cfg heap' = .ok bd.best)

/-- Invariant of the loop. -/
structure SeInv (ops : ArmOps S W β α) (cfg : BanditCfg I α) (heap0 : I → S) (st : Hist I α × List I) (s : (I → S) × W)
    (rs : List (RoundRec I S β α)) : Prop where
  ran : Ran ops cfg heap0 rs (Hist.done st.1 []) s.1
  chain : SeChain ops cfg rs
  cands : SeCands ops cfg rs st.2
  cum : st.1.cum = (List.range rs.length).map fun k => samplesAfter cfg.unitsPerRound rs (k + 1)
  total : st.1.total = samplesAfter cfg.unitsPerRound rs rs.length
  within : ∀ c ∈ st.1.cum.dropLast, ∃ L, cfg.sampleLimit = some L ∧ L.lt (.fin (c : α)) = false
  limit : rs ≠ [] → ∃ L, cfg.sampleLimit = some L

theorem SeChain.sublist {ops : ArmOps S W β α} {cfg : BanditCfg I α} {rs : List (RoundRec I S β α)} (h : SeChain ops cfg rs)
    (i : Nat) (r : RoundRec I S β α) (hr : rs[i]? = some r) : r.arms.Sublist cfg.arms := by
  induction i generalizing r with
  | zero => rw [h.first r hr]
  | succ i ih =>
    have hi : i < rs.length := by
      have := (List.getElem?_eq_some_iff.mp hr).1
      omega
    have hr' : rs[i]? = some rs[i] := List.getElem?_eq_getElem hi
    obtain ⟨_, m, _, _, h3⟩ := h.link i _ r hr' hr
    rw [h3]
    exact List.filter_sublist.trans (ih _ hr')

theorem SeCands.sublist {ops : ArmOps S W β α} {cfg : BanditCfg I α} {rs : List (RoundRec I S β α)} (h : SeChain ops cfg rs)
    {cands : List I} (hc : SeCands ops cfg rs cands) : cands.Sublist cfg.arms := by
  rcases hc with ⟨_, rfl⟩ | ⟨r, h1, _, m, _, _, h3⟩
  · exact List.Sublist.refl _
  · rw [List.getLast?_eq_getElem?] at h1
    rw [h3]
    exact List.filter_sublist.trans (h.sublist _ r h1)

theorem samplesAfter_append (u : Nat) (rs : List (RoundRec I S β α)) (r : RoundRec I S β α) :
    samplesAfter u (rs ++ [r]) (rs.length + 1) = samplesAfter u rs rs.length + r.arms.length * u := by
  unfold samplesAfter
  rw [List.take_of_length_le (by simp), List.take_of_length_le (by simp)]
  simp

theorem samplesAfter_prefix (u : Nat) (rs : List (RoundRec I S β α)) (r : RoundRec I S β α) (k : Nat) (hk : k ≤ rs.length) :
    samplesAfter u (rs ++ [r]) k = samplesAfter u rs k := by
  unfold samplesAfter
  rw [List.take_append_of_le_length hk]

theorem seRound_ok {env : BanditEnv W β} {ops : ArmOps S W β α} {cfg : BanditCfg I α} {all : Option (ExpData β)}
    (hnd : cfg.arms.Nodup) {heap0 : I → S} {st : Hist I α × List I} {s s' : (I → S) × W}
    {x : (Hist I α × List I) ⊕ BanditData I α}
    (hi : ∃ rs, SeInv ops cfg heap0 st s rs) (hr : seRound env ops cfg all st s = (.ok x, s')) :
    Sum.elim (fun st' => ∃ rs, SeInv ops cfg heap0 st' s' rs) (fun bd => ∃ rs, SeEnd ops cfg heap0 s'.1 rs bd) x := by
  obtain ⟨rs, hi⟩ := hi
  unfold seRound at hr
  by_cases hlen : st.2.length ≤ 1
  · rw [if_pos hlen] at hr
    obtain ⟨rfl, rfl⟩ := pure_ok hr
    exact ⟨rs, hi.ran.best _, hi.chain, hi.cum, hi.within, hi.limit, Or.inl ⟨hlen, hi.cands⟩⟩
  rw [if_neg hlen] at hr
  replace hr := Arm.bind_inv hr; obtain ⟨over, s3, e3, hr⟩ := hr
  obtain ⟨q3, rfl⟩ := lift_ok e3
  obtain ⟨L, hL, hover⟩ := overLimit_ok q3
  rw [hi.total] at hover
  by_cases ho : over = true
  · rw [if_pos ho] at hr
    replace hr := Arm.bind_inv hr; obtain ⟨⟨heap, w⟩, s4, e4, hr⟩ := hr
    obtain ⟨rfl, rfl⟩ := get_ok e4
    dsimp only at hr
    replace hr := Arm.bind_inv hr; obtain ⟨best, s5, e5, hr⟩ := hr
    obtain ⟨q5, rfl⟩ := lift_ok e5
    obtain ⟨rfl, rfl⟩ := pure_ok hr
    exact ⟨rs, hi.ran.best _, hi.chain, hi.cum, hi.within, hi.limit,
      Or.inr ⟨⟨st.2, by omega, hi.cands⟩, ⟨L, hL, hover.trans ho⟩, q5⟩⟩
  · rw [if_neg ho] at hr
    have hov : over = false := by simpa using ho
    have hsub := SeCands.sublist hi.chain hi.cands
    have hcnd : st.2.Nodup := hnd.sublist hsub
    replace hr := Arm.bind_inv hr; obtain ⟨⟨⟩, s5, e5, hr⟩ := hr
    obtain ⟨ps, p1, p2, p3⟩ := pull_forEach e5
    dsimp only at hr
    replace hr := Arm.bind_inv hr; obtain ⟨h', s6, e6, hr⟩ := hr
    obtain ⟨rfl, f3, f4, f5, f6⟩ := record_forEach hnd e6
    set u := cfg.unitsPerRound with hu
    set h'' := st.2.foldl (fun h a => setLastSample u a h) h' with hh''
    obtain ⟨g1, g2, g3, g4, g5, g6⟩ := setLast_fold u st.2 hcnd h'
    rw [← hh''] at g1 g2 g3 g4 g5 g6
    have hext : ∀ a ∈ cfg.arms, Extends ops s6.1 (if a ∈ ps.map (·.arm) then u else 0) st.1 h'' a := by
      intro a ha
      obtain ⟨l, uu, v, e1, e2, e3, e4, e5, e6, e7⟩ := f3 a ha
      refine ⟨l, uu, v, e1, e2, e3, by rw [g1]; exact e4, by rw [g2]; exact e5, by rw [g3]; exact e6, ?_⟩
      rw [g6, p1]
      simp only [addSamples] at e7
      split <;> simp [e7]
    have hran : Ran ops cfg heap0 (rs ++ [⟨ps, s6.1⟩]) (Hist.done h'' []) s6.1 := by
      refine hi.ran.snoc _ p3 p2 hext ?_
      rw [g4, f5]; simp [addSamples]
    have htot : h''.total = samplesAfter u (rs ++ [⟨ps, s6.1⟩]) (rs.length + 1) := by
      rw [samplesAfter_append, g5, f6]
      simp only [addSamples, hi.total, RoundRec.arms, p1, hu]
    have hcumeq : h''.cum = st.1.cum ++ [samplesAfter u (rs ++ [⟨ps, s6.1⟩]) (rs.length + 1)] := by
      rw [← htot, g4, f5, g5, f6]; simp [addSamples]
    have hcum : h''.cum = (List.range (rs ++ [(⟨ps, s6.1⟩ : RoundRec I S β α)]).length).map fun k => samplesAfter u (rs ++ [⟨ps, s6.1⟩]) (k + 1) := by
      rw [hcumeq, List.length_append, List.length_singleton, range_succ_map, hi.cum]
      congr 1
      apply List.map_congr_left
      intro k hk
      rw [samplesAfter_prefix _ _ _ _ (by simpa using hk)]
    have hwithin : ∀ c ∈ h''.cum.dropLast, ∃ L, cfg.sampleLimit = some L ∧ L.lt (.fin (c : α)) = false := by
      intro c hc
      rw [hcumeq, List.dropLast_concat] at hc
      refine ⟨L, hL, ?_⟩
      rw [hi.cum] at hc
      rcases Nat.eq_zero_or_pos rs.length with h0 | h0
      · rw [h0] at hc; simp at hc
      · obtain ⟨n, hn⟩ : ∃ n, rs.length = n + 1 := ⟨rs.length - 1, by omega⟩
        rw [hn, range_succ_map, List.mem_append] at hc
        rcases hc with hc | hc
        · have hin : c ∈ st.1.cum.dropLast := by rw [hi.cum, hn, range_succ_map, List.dropLast_concat]; exact hc
          obtain ⟨L', hL', h⟩ := hi.within c hin
          rw [hL] at hL'; cases hL'; exact h
        · simp only [List.mem_singleton] at hc
          rw [hc, ← hn]; exact hover.trans hov
    have hchain : SeChain ops cfg (rs ++ [⟨ps, s6.1⟩]) := by
      refine ⟨?_, ?_, ?_⟩
      · intro r hr
        rcases hi.cands with ⟨h1, h2⟩ | ⟨r', h1, _⟩
        · subst h1
          simp only [List.nil_append, List.getElem?_cons_zero, Option.some.injEq] at hr
          subst hr
          simp only [RoundRec.arms, p1, h2]
        · have : rs ≠ [] := by rintro rfl; simp at h1
          rw [List.getElem?_append_left (List.length_pos_iff.mpr this)] at hr
          exact hi.chain.first r hr
      · intro i r r' hr hr'
        have hi' := (List.getElem?_eq_some_iff.mp hr').1
        simp only [List.length_append, List.length_singleton] at hi'
        rw [List.getElem?_append_left (by omega)] at hr
        by_cases h : i + 1 < rs.length
        · rw [List.getElem?_append_left h] at hr'
          exact hi.chain.link i r r' hr hr'
        · have hi2 : i + 1 = rs.length := by omega
          rw [hi2, List.getElem?_append_right (le_refl _)] at hr'
          simp only [Nat.sub_self, List.getElem?_cons_zero, Option.some.injEq] at hr'
          subst hr'
          rcases hi.cands with ⟨h1, h2⟩ | ⟨q, h1, h2⟩
          · subst h1; simp at hi2
          · rw [List.getLast?_eq_getElem?, show rs.length - 1 = i by omega, hr] at h1
            simp only [Option.some.injEq] at h1
            subst h1
            simp only [RoundRec.arms, p1]
            exact h2
      · intro r hr
        rcases List.mem_append.mp hr with hr | hr
        · exact hi.chain.two r hr
        · simp only [List.mem_singleton] at hr
          subst hr
          simp only [RoundRec.arms, p1]
          omega
    replace hr := Arm.bind_inv hr; obtain ⟨next, s7, e7, hr⟩ := hr
    obtain ⟨q7, rfl⟩ := lift_ok e7
    have hel : ElimStep ops ⟨ps, s7.1⟩ next := by
      refine eliminate_ok (h0 := st.1) (fun a ha => ⟨_, hext a (hsub.subset ha)⟩) q7 ps p1
    by_cases hone : next.length = 1
    · rw [if_pos hone] at hr
      obtain ⟨rfl, rfl⟩ := pure_ok hr
      exact ⟨_, hran.best _, hchain, hcum, hwithin, fun _ => ⟨L, hL⟩, Or.inl ⟨le_of_eq hone, Or.inr ⟨_, by simp, hel⟩⟩⟩
    · rw [if_neg hone] at hr
      obtain ⟨rfl, rfl⟩ := pure_ok hr
      exact ⟨_, hran, hchain, Or.inr ⟨_, by simp, hel⟩, hcum, by rw [List.length_append]; exact htot, hwithin, fun _ => ⟨L, hL⟩⟩

/-- A returned run of successive elimination. -/
theorem se_master {env : BanditEnv W β} {ops : ArmOps S W β α} {cfg : BanditCfg I α} {all : Option (ExpData β)}
    (hnd : cfg.arms.Nodup) {fuel : Nat} {heap0 : I → S} {w0 : W} {bd : BanditData I α} {s' : (I → S) × W}
    (hr : seRun env ops cfg all fuel (heap0, w0) = (.ok (some bd), s')) :
    ∃ rs, SeEnd ops cfg heap0 s'.1 rs bd := by
  unfold seRun at hr
  exact Py.loop_inv (fun st s => ∃ rs, SeInv ops cfg heap0 st s rs) (fun bd s => ∃ rs, SeEnd ops cfg heap0 s.1 rs bd)
    (fun h s h' s' hi he => seRound_ok hnd hi he) (fun h s r s' hi he => seRound_ok hnd hi he) fuel _ _
    ⟨[], Ran.empty _ _ _, ⟨by simp, by simp, by simp⟩, Or.inl ⟨rfl, rfl⟩, rfl, rfl, by simp [Hist.empty], by simp⟩ _ _ hr

end Bandit
end Verif
