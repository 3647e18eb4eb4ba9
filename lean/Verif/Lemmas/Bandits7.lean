import Verif.Lemmas.Bandits6
import Mathlib.Data.List.Dedup
import Mathlib.Algebra.Order.Ring.Cast
import Mathlib.Tactic.Linarith
import Mathlib.Tactic.Ring

/-!
# Sums of samples, termination, and what the stopping rules guarantee
-/

set_option linter.unusedSectionVars false
set_option linter.unusedSimpArgs false

namespace Verif

namespace Bandit
variable {I S W β α : Type} [Field α] [LinearOrder α] [DecidableEq I]

/-! ## Sums -/

theorem sum_ite_arms (arms l : List I) (hnd : arms.Nodup) (hs : ∀ a ∈ l, a ∈ arms) (u : Nat) :
    (arms.map fun a => if a ∈ l then u else 0).sum = l.dedup.length * u := by
  have h1 : (arms.map fun a => if a ∈ l then u else 0).sum = (arms.filter fun a => a ∈ l).length * u := by
    clear hs hnd
    induction arms with
    | nil => simp
    | cons b t ih =>
      rw [List.map_cons, List.sum_cons, ih, List.filter_cons]
      by_cases hb : b ∈ l
      · simp [hb, Nat.add_mul, Nat.add_comm]
      · simp [hb]
  have h2 : (arms.filter fun a => a ∈ l).Perm l.dedup := by
    rw [List.perm_ext_iff_of_nodup (hnd.filter _) (List.nodup_dedup l)]
    intro a
    simp only [List.mem_filter, decide_eq_true_eq, List.mem_dedup]
    exact ⟨fun h => h.2, fun h => ⟨hs a h, h⟩⟩
  rw [h1, h2.length_eq]

theorem sum_add_map {γ : Type} (l : List γ) (f g : γ → Nat) : (l.map fun a => f a + g a).sum = (l.map f).sum + (l.map g).sum := by
  induction l with
  | nil => rfl
  | cons a l ih => simp only [List.map_cons, List.sum_cons, ih]; omega

theorem sum_swap {γ δ : Type} (l : List γ) (r : List δ) (f : γ → δ → Nat) :
    (l.map fun a => (r.map fun b => f a b).sum).sum = (r.map fun b => (l.map fun a => f a b).sum).sum := by
  induction r with
  | nil => simp
  | cons b r ih => simp only [List.map_cons, List.sum_cons, sum_add_map, ih]

/-- The samples accounted for by `samples_by_arm`. -/
theorem Ran.sampled {ops : ArmOps S W β α} {cfg : BanditCfg I α} {heap0 heap' : I → S} {rs : List (RoundRec I S β α)}
    {bd : BanditData I α} (hr : Ran ops cfg heap0 rs bd heap') (hnd : cfg.arms.Nodup)
    (hs : ∀ r ∈ rs, ∀ a ∈ r.arms, a ∈ cfg.arms) (t : Nat) :
    bd.sampledUpTo cfg.arms t = ((rs.take (t + 1)).map fun r => r.arms.dedup.length * cfg.unitsPerRound).sum := by
  unfold BanditData.sampledUpTo
  have h1 : (cfg.arms.map fun a => ((bd.samples a).take (t + 1)).sum) =
      cfg.arms.map fun a => ((rs.take (t + 1)).map fun r => if a ∈ r.arms then cfg.unitsPerRound else 0).sum := by
    apply List.map_congr_left
    intro a ha
    rw [hr.faithful.samples a ha, List.map_take]
  rw [h1, sum_swap]
  congr 1
  apply List.map_congr_left
  intro r hrm
  exact sum_ite_arms cfg.arms r.arms hnd (hs r (List.mem_of_mem_take hrm)) _

theorem sum_const_map {γ : Type} (l : List γ) (f : γ → Nat) (c : Nat) (h : ∀ a ∈ l, f a = c) : (l.map f).sum = l.length * c := by
  induction l with
  | nil => simp
  | cons a l ih =>
    rw [List.map_cons, List.sum_cons, ih fun b hb => h b (by simp [hb]), h a (by simp), List.length_cons, Nat.succ_mul, Nat.add_comm]

theorem getElem?_range_map {γ : Type} {f : Nat → γ} {n t : Nat} {c : γ} (h : ((List.range n).map f)[t]? = some c) : t < n ∧ c = f t := by
  rw [List.getElem?_map] at h
  rcases ht : (List.range n)[t]? with _ | k
  · simp [ht] at h
  · obtain ⟨h1, h2⟩ := List.getElem?_eq_some_iff.mp ht
    simp at h1 h2
    subst h2
    simp [ht] at h
    exact ⟨h1, h.symm⟩

theorem getElem?_dropLast_of {γ : Type} {l : List γ} {t : Nat} {c c' : γ} (h : l[t]? = some c) (h' : l[t + 1]? = some c') :
    c ∈ l.dropLast := by
  obtain ⟨h1, -⟩ := List.getElem?_eq_some_iff.mp h'
  have h2 := (List.getElem?_eq_some_iff.mp h).2
  rw [← h2]
  have : t < l.dropLast.length := by simp; omega
  rw [← List.getElem_dropLast this]
  exact List.getElem_mem _

/-! ## Termination -/

theorem forEach_keeps {σ H γ : Type} {f : I → H → Py σ H} (g : H → γ) (hf : ∀ a h s h' s', f a h s = (.ok h', s') → g h' = g h)
    (l : List I) (h h' : H) (s s' : σ) (hr : Py.forEach f l h s = (.ok h', s')) : g h' = g h := by
  induction l generalizing h s with
  | nil =>
    simp only [Py.forEach_nil, Py.pure_apply, Prod.mk.injEq, Except.ok.injEq] at hr
    rw [hr.1]
  | cons a l ih =>
    rw [Py.forEach_cons] at hr
    obtain ⟨h1, s1, e1, e2⟩ := Arm.bind_inv hr
    rw [ih h1 s1 e2, hf a h s h1 s1 e1]

theorem updateRecord_total {ops : ArmOps S W β α} {cfg : BanditCfg I α} {d : ExpData β} (l : List I) {h h' : Hist I α} {s s' : (I → S) × W}
    (hr : Py.forEach (updateRecord ops cfg d) l h s = (.ok h', s')) : h'.total = h.total := by
  refine forEach_keeps (fun h => h.total) ?_ l h h' s s' hr
  intro a h s h' s' e
  unfold updateRecord at e
  obtain ⟨_, s1, _, e1⟩ := Arm.bind_inv e
  exact (record_ok e1).2.2.2.2

theorem record_total {ops : ArmOps S W β α} {k : I → Nat} (l : List I) {h h' : Hist I α} {s s' : (I → S) × W}
    (hr : Py.forEach (record ops k) l h s = (.ok h', s')) : h'.total = h.total :=
  forEach_keeps (fun h => h.total) (fun _ _ _ _ _ e => (record_ok e).2.2.2.2) l h h' s s' hr

theorem setLast_total (n : Nat) (l : List I) (h : Hist I α) : (l.foldl (fun h a => setLastSample n a h) h).total = h.total := by
  induction l generalizing h with
  | nil => rfl
  | cons a l ih => rw [List.foldl_cons, ih]; rfl

theorem uniformRound_continue {env : BanditEnv W β} {ops : ArmOps S W β α} {cfg : BanditCfg I α} {all : Option (ExpData β)}
    {h h' : Hist I α} {s s' : (I → S) × W} (hr : uniformRound env ops cfg all h s = (.ok (.inl h'), s')) :
    h'.total = h.total + cfg.arms.length * cfg.unitsPerRound ∧ overLimit cfg h'.total = .ok false := by
  unfold uniformRound at hr
  replace hr := Arm.bind_inv hr; obtain ⟨d, s1, e1, hr⟩ := hr
  replace hr := Arm.bind_inv hr; obtain ⟨h1, s2, e2, hr⟩ := hr
  have ht := updateRecord_total _ e2
  dsimp only at hr
  replace hr := Arm.bind_inv hr; obtain ⟨over, s3, e3, hr⟩ := hr
  obtain ⟨q3, rfl⟩ := lift_ok e3
  replace hr := Arm.bind_inv hr; obtain ⟨⟨heap, w⟩, s4, e4, hr⟩ := hr
  dsimp only at hr
  split at hr
  · replace hr := Arm.bind_inv hr; obtain ⟨b, s5, e5, hr⟩ := hr
    obtain ⟨hh, -⟩ := pure_ok hr
    simp at hh
  · rename_i hov
    replace hr := Arm.bind_inv hr; obtain ⟨⟨e, b⟩, s5, e5, hr⟩ := hr
    dsimp only at hr
    split at hr
    · obtain ⟨hh, -⟩ := pure_ok hr
      simp at hh
    · obtain ⟨hh, -⟩ := pure_ok hr
      simp only [Sum.inl.injEq] at hh
      subst hh
      refine ⟨by simp [addSamples, ht], ?_⟩
      simpa [hov] using q3

theorem lucbRound_continue {env : BanditEnv W β} {ops : ArmOps S W β α} {cfg : BanditCfg I α} {all : Option (ExpData β)}
    {h h' : Hist I α} {s s' : (I → S) × W} (hr : lucbRound env ops cfg all h s = (.ok (.inl h'), s')) :
    h'.total = h.total + 2 * cfg.unitsPerRound ∧ overLimit cfg h.total = .ok false := by
  unfold lucbRound at hr
  replace hr := Arm.bind_inv hr; obtain ⟨over, s3, e3, hr⟩ := hr
  obtain ⟨q3, rfl⟩ := lift_ok e3
  split at hr
  · replace hr := Arm.bind_inv hr; obtain ⟨⟨heap, w⟩, s4, e4, hr⟩ := hr
    dsimp only at hr
    replace hr := Arm.bind_inv hr; obtain ⟨b, s5, e5, hr⟩ := hr
    obtain ⟨hh, -⟩ := pure_ok hr
    simp at hh
  · rename_i hov
    replace hr := Arm.bind_inv hr; obtain ⟨chosen, s4, e4, hr⟩ := hr
    replace hr := Arm.bind_inv hr; obtain ⟨⟨⟩, s5, e5, hr⟩ := hr
    replace hr := Arm.bind_inv hr; obtain ⟨h1, s6, e6, hr⟩ := hr
    have ht := record_total _ e6
    dsimp only at hr
    replace hr := Arm.bind_inv hr; obtain ⟨⟨heap, w⟩, s7, e7, hr⟩ := hr
    dsimp only at hr
    replace hr := Arm.bind_inv hr; obtain ⟨⟨e, b⟩, s8, e8, hr⟩ := hr
    dsimp only at hr
    split at hr
    · obtain ⟨hh, -⟩ := pure_ok hr
      simp at hh
    · obtain ⟨hh, -⟩ := pure_ok hr
      simp only [Sum.inl.injEq] at hh
      subst hh
      exact ⟨by simp [addSamples, ht], by simpa [hov] using q3⟩

theorem seRound_continue {env : BanditEnv W β} {ops : ArmOps S W β α} {cfg : BanditCfg I α} {all : Option (ExpData β)}
    {st st' : Hist I α × List I} {s s' : (I → S) × W} (hr : seRound env ops cfg all st s = (.ok (.inl st'), s')) :
    st'.1.total = st.1.total + st.2.length * cfg.unitsPerRound ∧ 2 ≤ st.2.length ∧ overLimit cfg st.1.total = .ok false := by
  unfold seRound at hr
  split at hr
  · obtain ⟨hh, -⟩ := pure_ok hr
    simp at hh
  rename_i hlen
  replace hr := Arm.bind_inv hr; obtain ⟨over, s3, e3, hr⟩ := hr
  obtain ⟨q3, rfl⟩ := lift_ok e3
  split at hr
  · replace hr := Arm.bind_inv hr; obtain ⟨⟨heap, w⟩, s4, e4, hr⟩ := hr
    dsimp only at hr
    replace hr := Arm.bind_inv hr; obtain ⟨b, s5, e5, hr⟩ := hr
    obtain ⟨hh, -⟩ := pure_ok hr
    simp at hh
  · rename_i hov
    replace hr := Arm.bind_inv hr; obtain ⟨⟨⟩, s5, e5, hr⟩ := hr
    dsimp only at hr
    replace hr := Arm.bind_inv hr; obtain ⟨h1, s6, e6, hr⟩ := hr
    have ht := record_total _ e6
    replace hr := Arm.bind_inv hr; obtain ⟨cands, s7, e7, hr⟩ := hr
    split at hr
    · obtain ⟨hh, -⟩ := pure_ok hr
      simp at hh
    · obtain ⟨hh, -⟩ := pure_ok hr
      simp only [Sum.inl.injEq] at hh
      subst hh
      refine ⟨?_, by omega, by simpa [hov] using q3⟩
      simp only [setLast_total]
      rw [ht]; rfl

section Stop
variable [IsStrictOrderedRing α]

theorem overLimit_false {cfg : BanditCfg I α} {l : α} (hL : cfg.sampleLimit = some (.fin l)) {t N : Nat}
    (h : overLimit cfg t = .ok false) (hN : l < (N : α)) : t < N := by
  obtain ⟨L, h1, h2⟩ := overLimit_ok h
  rw [hL] at h1
  cases h1
  simp only [Fl.lt] at h2
  have h3 : (t : α) ≤ l := by simpa using h2.symm
  exact_mod_cast lt_of_le_of_lt h3 hN

theorem uniform_stops (env : BanditEnv W β) (ops : ArmOps S W β α) (cfg : BanditCfg I α) (all : Option (ExpData β)) {l : α}
    (hL : cfg.sampleLimit = some (.fin l)) (N : Nat) (hN : l < ((N * (cfg.arms.length * cfg.unitsPerRound) : Nat) : α)) (hN0 : 0 < N)
    (fuel : Nat) (hf : N ≤ fuel) (s : (I → S) × W) : (uniformRun env ops cfg all fuel s).1 ≠ .ok none := by
  intro h
  refine Py.loop_stops (fun k (h : Hist I α) => h.total = k * (cfg.arms.length * cfg.unitsPerRound)) N ?_ fuel 0 Hist.empty s
    (by simp [Hist.empty]) hN0 (by omega) (uniformRun env ops cfg all fuel s).2 (Prod.ext h rfl)
  intro k h s h' s' hi hr
  obtain ⟨h1, h2⟩ := uniformRound_continue hr
  have ht : h'.total = (k + 1) * (cfg.arms.length * cfg.unitsPerRound) := by rw [h1, hi, Nat.succ_mul]
  refine ⟨ht, ?_⟩
  have := overLimit_false hL h2 hN
  rw [ht] at this
  exact Nat.lt_of_mul_lt_mul_right this

theorem lucb_stops (env : BanditEnv W β) (ops : ArmOps S W β α) (cfg : BanditCfg I α) (all : Option (ExpData β)) {l : α}
    (hL : cfg.sampleLimit = some (.fin l)) (N : Nat)
    (hN : l < ((cfg.arms.length * cfg.unitsPerRound + N * (2 * cfg.unitsPerRound) : Nat) : α))
    (fuel : Nat) (hf : N + 1 ≤ fuel) (s : (I → S) × W) : (lucbRun env ops cfg all fuel s).1 ≠ .ok none := by
  intro h
  have hr : lucbRun env ops cfg all fuel s = (.ok none, (lucbRun env ops cfg all fuel s).2) := Prod.ext h rfl
  generalize (lucbRun env ops cfg all fuel s).2 = s' at hr
  unfold lucbRun at hr
  replace hr := Arm.bind_inv hr; obtain ⟨d, s1, e1, hr⟩ := hr
  replace hr := Arm.bind_inv hr; obtain ⟨h0, s2, e2, hr⟩ := hr
  have ht := updateRecord_total _ e2
  refine Py.loop_stops (fun k (h : Hist I α) => h.total = cfg.arms.length * cfg.unitsPerRound + k * (2 * cfg.unitsPerRound)) (N + 1) ?_ fuel 0 _ s2
    (by simp [addSamples, ht, Hist.empty]) (by omega) (by omega) s' hr
  intro k h s h' s' hi hr
  obtain ⟨h1, h2⟩ := lucbRound_continue hr
  refine ⟨by rw [h1, hi, Nat.add_mul k 1, Nat.one_mul, Nat.add_assoc], ?_⟩
  have := overLimit_false hL h2 hN
  rw [hi] at this
  have := Nat.lt_of_mul_lt_mul_right (Nat.lt_of_add_lt_add_left this)
  omega

theorem se_stops (env : BanditEnv W β) (ops : ArmOps S W β α) (cfg : BanditCfg I α) (all : Option (ExpData β)) {l : α}
    (hL : cfg.sampleLimit = some (.fin l)) (N : Nat) (hN : l < ((N * (2 * cfg.unitsPerRound) : Nat) : α))
    (fuel : Nat) (hf : N + 1 ≤ fuel) (s : (I → S) × W) : (seRun env ops cfg all fuel s).1 ≠ .ok none := by
  intro h
  refine Py.loop_stops (fun k (st : Hist I α × List I) => k * (2 * cfg.unitsPerRound) ≤ st.1.total) (N + 1) ?_ fuel 0 _ s
    (by simp [Hist.empty]) (by omega) (by omega) (seRun env ops cfg all fuel s).2 (Prod.ext h rfl)
  intro k st s st' s' hi hr
  obtain ⟨h1, h2, h3⟩ := seRound_continue hr
  have h4 : 2 * cfg.unitsPerRound ≤ st.2.length * cfg.unitsPerRound := Nat.mul_le_mul_right _ h2
  refine ⟨by rw [h1, Nat.add_mul k 1, Nat.one_mul]; omega, ?_⟩
  have := overLimit_false hL h3 hN
  have := Nat.lt_of_mul_lt_mul_right (lt_of_le_of_lt hi this)
  omega

end Stop

/-! ## Consequences of the stopping rules -/

theorem Fl.lt_sub_mono (u m l t : Fl α) [IsStrictOrderedRing α] (h : u.lt (m.sub t) = true) (hml : m.le l = true) : u.lt (l.sub t) = true := by
  cases u <;> cases m <;> cases l <;> cases t <;> simp_all [Fl.lt, Fl.le, Fl.eq, Fl.sub, Fl.add, Fl.neg]
  rcases hml with h' | h'
  · linarith
  · linarith

end Bandit
end Verif
