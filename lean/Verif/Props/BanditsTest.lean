import Verif.Lemmas.BanditsTest2
import Verif.Props.ExampleScm2

/-!
# Property C107: the runs of the bandits with arms of constant estimates, and the project's tests of the bandits
-/

set_option linter.unusedSectionVars false
set_option linter.unusedSimpArgs false

namespace Verif
namespace Bandit
variable {I W β α : Type} [Field α] [LinearOrder α] [IsStrictOrderedRing α] [DecidableEq I]
variable {v : I → α} {wd : I → ℕ → Fl α} {cfg : BanditCfg I α} {env : BanditEnv W β} {lim : Fl α} {tol : α}

/-- **C107** Uniform sampling with arms of constant estimates: the run ends with the first round after which the sample limit is exceeded or an arm is separated, every arm has got the units of
every round, and the histories are the constant estimates and the bounds for the units seen so far. -/
theorem C107_uniform_trace {w : I → ℕ → α} (hnd : cfg.arms.Nodup) (h2 : 2 ≤ cfg.arms.length) (hw : ∀ a m, 0 < m → wd a m = .fin (w a m)) (hw0 : ∀ a m, 0 ≤ w a m)
    (hu : 0 < cfg.unitsPerRound) (hg : Gives env cfg.unitsPerRound) (hlim : cfg.sampleLimit = some lim) (htol : cfg.errorTol = .fin tol) (ht0 : 0 ≤ tol) {T : ℕ}
    (hrun : ∀ t < T, lim.lt (.fin ((cfg.arms.length * cfg.unitsPerRound * (t + 1) : ℕ) : α)) = false ∧ ¬ ∃ b, Separated cfg.arms tol v (fun a => w a (cfg.unitsPerRound * (t + 1))) b)
    {best : List I}
    (hstop : (lim.lt (.fin ((cfg.arms.length * cfg.unitsPerRound * (T + 1) : ℕ) : α)) = true ∧ best = cfg.arms.filter fun a => ∀ c ∈ cfg.arms, v a ≤ v c) ∨
      (lim.lt (.fin ((cfg.arms.length * cfg.unitsPerRound * (T + 1) : ℕ) : α)) = false ∧ ∃ b, Separated cfg.arms tol v (fun a => w a (cfg.unitsPerRound * (T + 1))) b ∧ best = [b]))
    {fuel : ℕ} (hf : T < fuel) (s : W) :
    ∃ D s', uniformRun env ConstantArm.ops cfg none fuel (fun a => ConstantArm.new (v a) (wd a), s) = (.ok (some D), s') ∧
      ConstantHistory cfg.arms v w (fun _ _ => cfg.unitsPerRound) (T + 1) D ∧ D.best = best := by
  refine loop_exact (fun t h s => After cfg.arms v w (fun _ _ => cfg.unitsPerRound) t h ∧ s.1 = constHeap v wd (uniCount cfg t))
    (fun D => ConstantHistory cfg.arms v w (fun _ _ => cfg.unitsPerRound) (T + 1) D ∧ D.best = best) T ?_ ?_ T 0 (by omega) fuel hf _ _ ⟨After.zero _ _, ?_⟩
  · rintro t ht h ⟨heap, s⟩ ⟨H, rfl⟩
    obtain ⟨h', s', H', -, e⟩ := uniform_round hw hg hu hnd hlim h2 htol ht0 hw0 H s
    exact ⟨h', _, (e (hrun t ht).1).2 (hrun t ht).2, H', rfl⟩
  · rintro h ⟨heap, s⟩ ⟨H, rfl⟩
    obtain ⟨h', s', H', e1, e2⟩ := uniform_round hw hg hu hnd hlim h2 htol ht0 hw0 H s
    rcases hstop with ⟨ho, rfl⟩ | ⟨ho, b, hb, rfl⟩
    · exact ⟨_, _, e1 ho, H'.done _, rfl⟩
    · exact ⟨_, _, (e2 ho).1 b hb, H'.done _, rfl⟩
  · rw [const_start]
    have e : (fun _ => 0) = uniCount cfg 0 := funext fun a => by simp [uniCount]
    rw [e]

open Classical in
/-- **C107** Successive elimination with arms of constant estimates and a common width: in every round the arms get units whose lower bounds have always been below the upper bound of the best
arm, so far; the run ends after the first round that leaves only the best arm, or that exceeds the sample limit. -/
theorem C107_elimination_trace {w : ℕ → α} (hnd : cfg.arms.Nodup) (hw : ∀ a m, 0 < m → wd a m = .fin (w m)) (hw0 : ∀ m, 0 < m → 0 < w m)
    (hu : 0 < cfg.unitsPerRound) (hg : Gives env cfg.unitsPerRound) (hlim : cfg.sampleLimit = some lim) {b : I} (hb : b ∈ cfg.arms) (hmin : ∀ a ∈ cfg.arms, v b ≤ v a) {k : I → ℕ → ℕ}
    (hk : ∀ a t, k a t = if Alive v w cfg.unitsPerRound (v b) t a then cfg.unitsPerRound else 0) {T : ℕ}
    (hrun : ∀ t ≤ T, lim.lt (.fin (((cfg.arms.map fun a => ∑ i ∈ Finset.range t, k a i).sum : ℕ) : α)) = false) (hleft : ∃ a ∈ cfg.arms, a ≠ b ∧ Alive v w cfg.unitsPerRound (v b) T a)
    {best : List I}
    (hstop : ((∀ a ∈ cfg.arms, Alive v w cfg.unitsPerRound (v b) (T + 1) a → a = b) ∧ best = [b]) ∨
      ((∃ a ∈ cfg.arms, a ≠ b ∧ Alive v w cfg.unitsPerRound (v b) (T + 1) a) ∧
        lim.lt (.fin (((cfg.arms.map fun a => ∑ i ∈ Finset.range (T + 1), k a i).sum : ℕ) : α)) = true ∧ best = cfg.arms.filter fun a => ∀ c ∈ cfg.arms, v a ≤ v c))
    {fuel : ℕ} (hf : T + 1 < fuel) (s : W) :
    ∃ D s', seRun env ConstantArm.ops cfg none fuel (fun a => ConstantArm.new (v a) (wd a), s) = (.ok (some D), s') ∧
      ConstantHistory cfg.arms v (fun _ => w) k (T + 1) D ∧ D.best = best := by
  obtain rfl : k = seUnits v w cfg.unitsPerRound (v b) := by
    funext a t
    rw [hk, seUnits]
  have hbal : ∀ t, Alive v w cfg.unitsPerRound (v b) t b := fun t s h0 _ => by
    have := hw0 (cfg.unitsPerRound * s) (Nat.mul_pos hu h0)
    linarith
  have htwo : ∀ t, (∃ a ∈ cfg.arms, a ≠ b ∧ Alive v w cfg.unitsPerRound (v b) t a) → 2 ≤ (seCands cfg.arms v w cfg.unitsPerRound (v b) t).length := by
    rintro t ⟨a, ha, hab, hal⟩
    have hp : [a, b].Nodup := by simp [hab]
    have := (List.subperm_of_subset hp (l₂ := seCands cfg.arms v w cfg.unitsPerRound (v b) t) (by
      intro x hx
      rcases List.mem_cons.1 hx with rfl | hx
      · exact mem_seCands.2 ⟨ha, hal⟩
      · rw [List.mem_singleton.1 hx]; exact mem_seCands.2 ⟨hb, hbal t⟩)).length_le
    simpa using this
  have hleft' : ∀ t ≤ T, ∃ a ∈ cfg.arms, a ≠ b ∧ Alive v w cfg.unitsPerRound (v b) t a := fun t ht => by
    obtain ⟨a, ha, hab, hal⟩ := hleft
    exact ⟨a, ha, hab, alive_le ht hal⟩
  have hstart : (Hist.empty, cfg.arms) = ((Hist.empty : Hist I α), seCands cfg.arms v w cfg.unitsPerRound (v b) 0) := by
    congr 1
    simp [seCands, alive_zero]
  have hheap : (fun a => ConstantArm.new (v a) (wd a)) = constHeap v wd (seCount cfg.arms v w cfg.unitsPerRound (v b) 0) := by
    rw [const_start]
    congr 1
    funext a
    simp [seCount]
  have inv0 : After cfg.arms v (fun _ => w) (seUnits v w cfg.unitsPerRound (v b)) 0 (Hist.empty : Hist I α) := After.zero _ _
  unfold seRun
  rw [hstart, hheap]
  rcases hstop with ⟨h1, rfl⟩ | ⟨h1, h3, rfl⟩
  · refine loop_exact (fun t h s => After cfg.arms v (fun _ => w) (seUnits v w cfg.unitsPerRound (v b)) t h.1 ∧ h.2 = seCands cfg.arms v w cfg.unitsPerRound (v b) t ∧
        s.1 = constHeap v wd (seCount cfg.arms v w cfg.unitsPerRound (v b) t))
      (fun D => ConstantHistory cfg.arms v (fun _ => w) (seUnits v w cfg.unitsPerRound (v b)) (T + 1) D ∧ D.best = [b]) T ?_ ?_ T 0 (by omega) fuel (by omega) _ _ ⟨inv0, rfl, rfl⟩
    · rintro t ht ⟨h, c⟩ ⟨heap, s⟩ ⟨H, rfl, rfl⟩
      obtain ⟨h', s', H', e⟩ := se_round hw hg hu hnd hlim hb hmin hw0 H (htwo t (hleft' t ht.le)) (by rw [H.total]; exact hrun t ht.le) s
      rw [if_neg (by have := htwo (t + 1) (hleft' (t + 1) ht); omega)] at e
      exact ⟨_, _, e, H', rfl, rfl⟩
    · rintro ⟨h, c⟩ ⟨heap, s⟩ ⟨H, rfl, rfl⟩
      obtain ⟨h', s', H', e⟩ := se_round hw hg hu hnd hlim hb hmin hw0 H (htwo T hleft) (by rw [H.total]; exact hrun T le_rfl) s
      have hone : seCands cfg.arms v w cfg.unitsPerRound (v b) (T + 1) = [b] := by
        unfold seCands
        refine filter_eq_singleton hnd hb fun a ha => ?_
        rw [decide_eq_true_eq]
        exact ⟨h1 a ha, fun h => h ▸ hbal _⟩
      rw [hone, if_pos (by rfl)] at e
      exact ⟨_, _, e, H'.done _, rfl⟩
  · refine loop_exact (fun t h s => After cfg.arms v (fun _ => w) (seUnits v w cfg.unitsPerRound (v b)) t h.1 ∧ h.2 = seCands cfg.arms v w cfg.unitsPerRound (v b) t ∧
        s.1 = constHeap v wd (seCount cfg.arms v w cfg.unitsPerRound (v b) t))
      (fun D => ConstantHistory cfg.arms v (fun _ => w) (seUnits v w cfg.unitsPerRound (v b)) (T + 1) D ∧ D.best = cfg.arms.filter fun a => ∀ c ∈ cfg.arms, v a ≤ v c) (T + 1) ?_ ?_
      (T + 1) 0 (by omega) fuel hf _ _ ⟨inv0, rfl, rfl⟩
    · rintro t ht ⟨h, c⟩ ⟨heap, s⟩ ⟨H, rfl, rfl⟩
      obtain ⟨h', s', H', e⟩ := se_round hw hg hu hnd hlim hb hmin hw0 H (htwo t (hleft' t (by omega))) (by rw [H.total]; exact hrun t (by omega)) s
      have h4 : 2 ≤ (seCands cfg.arms v w cfg.unitsPerRound (v b) (t + 1)).length := by
        rcases Nat.lt_or_ge t T with h5 | h5
        · exact htwo _ (hleft' _ h5)
        · obtain rfl : t = T := by omega
          exact htwo _ h1
      rw [if_neg (by omega)] at e
      exact ⟨_, _, e, H', rfl, rfl⟩
    · rintro ⟨h, c⟩ ⟨heap, s⟩ ⟨H, rfl, rfl⟩
      exact ⟨_, _, se_stop hw hu hlim (htwo _ h1) (List.ne_nil_of_mem hb) (by rw [H.total]; exact h3) s, H.done _, rfl⟩

/-- **C107** LUCB with arms of constant estimates, of which `b` has the lowest: after a first round for all arms, every round gives units to `b` and to the other arm with the lowest lower bound,
and the run ends after the first of these rounds that separates an arm, or when the sample limit is exceeded; the result is `b`. -/
theorem C107_lucb_trace {w : I → ℕ → α} (hnd : cfg.arms.Nodup) (hw : ∀ a m, 0 < m → wd a m = .fin (w a m)) (hw0 : ∀ a m, 0 ≤ w a m)
    (hu : 0 < cfg.unitsPerRound) (hg : Gives env cfg.unitsPerRound) (hlim : cfg.sampleLimit = some lim) (htol : cfg.errorTol = .fin tol) (ht0 : 0 ≤ tol) {b : I} (hb : b ∈ cfg.arms)
    (hmin : ∀ a ∈ cfg.arms, a ≠ b → v b < v a) {c : ℕ → I} {k : I → ℕ → ℕ} (hk0 : ∀ a, k a 0 = cfg.unitsPerRound)
    (hk : ∀ a t, k a (t + 1) = if a = b ∨ a = c t then cfg.unitsPerRound else 0) {T : ℕ}
    (hrun : ∀ t < T, lim.lt (.fin (((cfg.arms.length + 2 * t) * cfg.unitsPerRound : ℕ) : α)) = false ∧ Challenger cfg.arms v (fun a => w a (∑ i ∈ Finset.range (t + 1), k a i)) b (c t))
    (hsep : ∀ t, 0 < t → t < T → ¬ ∃ a, Separated cfg.arms tol v (fun a => w a (∑ i ∈ Finset.range (t + 1), k a i)) a)
    (hstop : (0 < T ∧ ∃ a, Separated cfg.arms tol v (fun a => w a (∑ i ∈ Finset.range (T + 1), k a i)) a) ∨ lim.lt (.fin (((cfg.arms.length + 2 * T) * cfg.unitsPerRound : ℕ) : α)) = true)
    {fuel : ℕ} (hf : T < fuel) (s : W) :
    ∃ D s', lucbRun env ConstantArm.ops cfg none fuel (fun a => ConstantArm.new (v a) (wd a), s) = (.ok (some D), s') ∧ ConstantHistory cfg.arms v w k (T + 1) D ∧ D.best = [b] := by
  have hwd : Widths wd w := hw
  let cnt : ℕ → I → ℕ := fun t a => if a ∈ cfg.arms then ∑ i ∈ Finset.range (t + 1), k a i else 0
  have hcnt : ∀ t, ∀ a ∈ cfg.arms, cnt t a = ∑ i ∈ Finset.range (t + 1), k a i := fun t a ha => if_pos ha
  have hpos : ∀ t, ∀ a ∈ cfg.arms, 0 < cnt t a := fun t a ha => by
    rw [hcnt t a ha, Finset.sum_range_succ', hk0]
    omega
  have hbump : ∀ t, c t ∈ cfg.arms → bump (cnt t) cfg.unitsPerRound [b, c t] = cnt (t + 1) := fun t hc => by
    funext a
    by_cases ha : a ∈ cfg.arms
    · rw [hcnt _ a ha, Finset.sum_range_succ, ← hcnt t a ha, hk]
      by_cases h1 : a = b ∨ a = c t <;> simp [bump, h1]
    · have h1 : ¬ (a = b ∨ a = c t) := by
        rintro (rfl | rfl)
        · exact ha hb
        · exact ha hc
      simp [bump, h1, cnt, ha]
  have hpair : ∀ t < T, LucbPair cfg.arms v (fun a => w a (cnt t a)) b (c t) := fun t ht => by
    obtain ⟨-, h⟩ := hrun t ht
    have e : ∀ a ∈ cfg.arms, w a (cnt t a) = w a (∑ i ∈ Finset.range (t + 1), k a i) := fun a ha => by rw [hcnt t a ha]
    exact ⟨⟨h.mem, h.ne, fun a ha h1 h2 => by rw [e a ha, e _ h.mem]; exact h.lcb a ha h1 h2, by rw [e b hb, e _ h.mem]; exact h.tieL,
      fun a ha h1 => by rw [e a ha, e b hb]; exact h.tieU a ha h1⟩, hb, hmin⟩
  have hsep' : ∀ t a, Separated cfg.arms tol v (fun a => w a (cnt t a)) a ↔ Separated cfg.arms tol v (fun a => w a (∑ i ∈ Finset.range (t + 1), k a i)) a := by
    intro t a
    refine and_congr_right fun ha => forall_congr' fun d => forall_congr' fun hd => ?_
    simp only [hcnt t a ha, hcnt t d hd]
  have hk1 : ∀ t, c t ∈ cfg.arms → c t ≠ b → (cfg.arms.map fun a => k a (t + 1)).sum = 2 * cfg.unitsPerRound := fun t hc hcb => by
    have e : (cfg.arms.map fun a => k a (t + 1)) = cfg.arms.map fun a => if a ∈ [b, c t] then cfg.unitsPerRound else 0 := List.map_congr_left fun a _ => by simp [hk]
    have hcount : cfg.arms.countP (fun a => a ∈ [b, c t]) = 2 := by
      have h1 : (cfg.arms.filter fun a => a ∈ [b, c t]).Perm [b, c t] := (List.perm_ext_iff_of_nodup (hnd.filter _) (by simp [hcb.symm])).2 fun a => by
        rw [List.mem_filter, decide_eq_true_eq]
        refine ⟨fun h => h.2, fun h => ⟨?_, h⟩⟩
        rcases List.mem_cons.1 h with rfl | h
        · exact hb
        · rw [List.mem_singleton.1 h]; exact hc
      rw [List.countP_eq_length_filter, h1.length_eq]
      rfl
    rw [e, sum_ite, hcount]
  have hlen : ∀ t, (∀ i < t, c i ∈ cfg.arms ∧ c i ≠ b) → (cfg.arms.map fun a => ∑ i ∈ Finset.range (t + 1), k a i).sum = (cfg.arms.length + 2 * t) * cfg.unitsPerRound := by
    intro t
    induction t with
    | zero => intro _; simp [hk0]
    | succ t ih =>
      intro h
      have e : (cfg.arms.map fun a => ∑ i ∈ Finset.range (t + 1 + 1), k a i) = cfg.arms.map fun a => (∑ i ∈ Finset.range (t + 1), k a i) + k a (t + 1) :=
        List.map_congr_left fun a _ => Finset.sum_range_succ _ _
      rw [e, List.sum_map_add, ih fun i hi => h i (by omega), hk1 t (h t (by omega)).1 (h t (by omega)).2]
      ring
  have hch : ∀ t < T, c t ∈ cfg.arms ∧ c t ≠ b := fun t ht => ⟨(hrun t ht).2.mem, (hrun t ht).2.ne⟩
  obtain ⟨d, s1, e1, e2⟩ := hg s
  have hfirst := updateRecord_all (v := v) hwd hu e2 cfg.arms hnd (fun _ => 0) (Hist.empty : Hist I α) s1
  have hb0 : bump (fun _ => 0) cfg.unitsPerRound cfg.arms = cnt 0 := by
    funext a
    by_cases ha : a ∈ cfg.arms <;> simp [bump, cnt, ha, hk0]
  rw [hb0] at hfirst
  have inv0 := (After.zero (v := v) (w := w) cfg.arms k).push (hcnt 0) (k' := fun _ => cfg.unitsPerRound) (fun a _ => (hk0 a).symm) (m := cfg.arms.length * cfg.unitsPerRound) (by simp [hk0])
  have hnext : ∀ t < T, ∀ h : Hist I α, After cfg.arms v w k (t + 1) h → After cfg.arms v w k (t + 1 + 1)
      (addSamples (2 * cfg.unitsPerRound) (push v w (cnt (t + 1)) (fun a => if a ∈ [b, c t] then cfg.unitsPerRound else 0) cfg.arms h)) := fun t ht h H =>
    H.push (hcnt (t + 1)) (fun a _ => by simp [hk]) (hk1 t (hch t ht).1 (hch t ht).2).symm
  have hover : ∀ t < T, ∀ h : Hist I α, After cfg.arms v w k (t + 1) h → lim.lt (.fin (h.total : α)) = false := fun t ht h H => by
    rw [H.total, hlen t fun i hi => hch i (by omega)]
    exact (hrun t ht).1
  have hstep : ∀ t < T, ∀ (h : Hist I α) (s : (I → ConstantArm α) × W), (¬ ∃ a, Separated cfg.arms tol v (fun a => w a (∑ i ∈ Finset.range (t + 1 + 1), k a i)) a) →
      After cfg.arms v w k (t + 1) h ∧ s.1 = constHeap v wd (cnt t) → ∃ h' s', lucbRound env ConstantArm.ops cfg none h s = (.ok (.inl h'), s') ∧
        After cfg.arms v w k (t + 1 + 1) h' ∧ s'.1 = constHeap v wd (cnt (t + 1)) := by
    rintro t ht h ⟨heap, s⟩ hns ⟨H, rfl⟩
    obtain ⟨s', -, e⟩ := lucb_round hwd hg hu hnd hlim htol ht0 hw0 (hpos t) (hpair t ht) (hover t ht h H) s
    rw [hbump t (hch t ht).1] at e
    exact ⟨_, _, e fun ⟨a, ha⟩ => hns ⟨a, (hsep' (t + 1) a).1 ha⟩, hnext t ht h H, rfl⟩
  have hgoal : ∃ D s', Py.loop (lucbRound env ConstantArm.ops cfg none) fuel (addSamples (cfg.arms.length * cfg.unitsPerRound) (push v w (cnt 0) (fun _ => cfg.unitsPerRound) cfg.arms Hist.empty))
      (constHeap v wd (cnt 0), s1) = (.ok (some D), s') ∧ ConstantHistory cfg.arms v w k (T + 1) D ∧ D.best = [b] := by
    by_cases hS : 0 < T ∧ ∃ a, Separated cfg.arms tol v (fun a => w a (∑ i ∈ Finset.range (T + 1), k a i)) a
    · obtain ⟨hT, hS⟩ := hS
      obtain ⟨T, rfl⟩ : ∃ n, T = n + 1 := ⟨T - 1, by omega⟩
      refine loop_exact (fun t h s => After cfg.arms v w k (t + 1) h ∧ s.1 = constHeap v wd (cnt t)) (fun D => ConstantHistory cfg.arms v w k (T + 1 + 1) D ∧ D.best = [b]) T
        (fun t ht h s hi => hstep t (by omega) h s (hsep (t + 1) (by omega) (by omega)) hi) ?_ T 0 (by omega) fuel (by omega) _ _ ⟨inv0, rfl⟩
      rintro h ⟨heap, s⟩ ⟨H, rfl⟩
      obtain ⟨s', e, -⟩ := lucb_round hwd hg hu hnd hlim htol ht0 hw0 (hpos T) (hpair T (by omega)) (hover T (by omega) h H) s
      rw [hbump T (hch T (by omega)).1] at e
      obtain ⟨a, ha⟩ := hS
      exact ⟨_, _, e ⟨a, (hsep' (T + 1) a).2 ha⟩, (hnext T (by omega) h H).done _, rfl⟩
    · refine loop_exact (fun t h s => After cfg.arms v w k (t + 1) h ∧ s.1 = constHeap v wd (cnt t)) (fun D => ConstantHistory cfg.arms v w k (T + 1) D ∧ D.best = [b]) T
        (fun t ht h s hi => hstep t ht h s ?_ hi) ?_ T 0 (by omega) fuel hf _ _ ⟨inv0, rfl⟩
      · rcases Nat.lt_or_ge (t + 1) T with h5 | h5
        · exact hsep (t + 1) (by omega) h5
        · obtain rfl : T = t + 1 := by omega
          exact fun h => hS ⟨by omega, h⟩
      · rintro h ⟨heap, s⟩ ⟨H, rfl⟩
        refine ⟨_, _, lucb_stop hwd hlim (hpos T) (List.ne_nil_of_mem hb) ?_ s, H.done _, ?_⟩
        · rw [H.total, hlen T hch]
          exact hstop.resolve_left hS
        · exact filter_lowest hnd hb hmin
  unfold lucbRun lucbFirst generate
  rw [Py.bind_apply]
  simp only [e1]
  rw [Py.bind_apply, const_start, hfirst]
  exact hgoal

end Bandit

namespace BanditsTest
open Bandit ParametersTest
variable {W : Type}

/-- the width for `n` units -/
noncomputable def widthR (n : ℕ) : ℝ := Real.sqrt 20 / Real.sqrt n

theorem width_eq {n : ℕ} (h : 0 < n) : width n = .fin (widthR n) := by
  have : Real.sqrt n ≠ 0 := (Real.sqrt_pos.2 (by exact_mod_cast h)).ne'
  simp [width, widthR, Fl.div, this]

theorem widthR_nonneg (n : ℕ) : 0 ≤ widthR n := by unfold widthR; positivity

theorem widthR_pos {n : ℕ} (h : 0 < n) : 0 < widthR n := by
  have : (0 : ℝ) < n := by exact_mod_cast h
  unfold widthR
  positivity

theorem widthR_eq (n : ℕ) : widthR n = Real.sqrt (20 / n) := (Real.sqrt_div' 20 (by positivity)).symm

theorem widthR_lt {n : ℕ} {x : ℝ} (hx : 0 < x) (h : 20 / n < x ^ 2) : widthR n < x := by
  rw [widthR_eq]
  exact (Real.sqrt_lt' hx).2 h

theorem lt_widthR {n : ℕ} {x : ℝ} (hx : 0 ≤ x) (h : x ^ 2 < 20 / n) : x < widthR n := by
  rw [widthR_eq]
  exact (Real.lt_sqrt hx).2 h

theorem widthR_at {n : ℕ} {x : ℝ} (hx : 0 ≤ x) (h : 20 / n = x ^ 2) : widthR n = x := by
  rw [widthR_eq, h, Real.sqrt_sq hx]

theorem allClose_self {A : Type} (f : A → ℝ) (l : List A) : allClose (l.map fun a => .fin (f a)) (l.map fun a => .fin (f a)) = true := by
  induction l with
  | nil => rfl
  | cons a l ih =>
    simp only [List.map_cons, allClose, ih, Bool.and_true, close, sub_self, abs_zero, decide_eq_true_eq]
    positivity

/-- the assertions about an arm hold for the histories of a run -/
theorem checkArm_of {v : Fin 3 → ℝ} {k : Fin 3 → ℕ → ℕ} {T : ℕ} {D : BanditData (Fin 3) ℝ} (h : ConstantHistory [0, 1, 2] v (fun _ => widthR) k T D) (a : Fin 3) {ns ks : List ℕ}
    (hns : (List.range T).map (k a) = ns) (hks : (List.range T).map (fun t => ∑ i ∈ Finset.range (t + 1), k a i) = ks) (hpos : ∀ m ∈ ks, 0 < m) : checkArm D a (v a) ns ks = true := by
  have ha : a ∈ [(0 : Fin 3), 1, 2] := by fin_cases a <;> simp
  have hlen : ns.length = T := by simp [← hns]
  have e1 : (ks.map fun k => (Fl.fin (v a)).sub (width k)) = ks.map fun k => .fin (v a - widthR k) := List.map_congr_left fun m hm => by
    rw [width_eq (hpos m hm)]
    simp [Fl.sub, Fl.neg, Fl.add, sub_eq_add_neg]
  have e2 : (ks.map fun k => (Fl.fin (v a)).add (width k)) = ks.map fun k => .fin (v a + widthR k) := List.map_congr_left fun m hm => by
    rw [width_eq (hpos m hm)]
    simp [Fl.add]
  unfold checkArm
  rw [e1, e2, h.var a ha, h.samples a ha, h.lcb a ha, h.ucb a ha, hns]
  have e3 : (List.range T).map (fun t => Fl.fin (v a - widthR (∑ i ∈ Finset.range (t + 1), k a i))) = ks.map fun k => .fin (v a - widthR k) := by
    rw [← hks, List.map_map]; rfl
  have e4 : (List.range T).map (fun t => Fl.fin (v a + widthR (∑ i ∈ Finset.range (t + 1), k a i))) = ks.map fun k => .fin (v a + widthR k) := by
    rw [← hks, List.map_map]; rfl
  have e5 : List.replicate T (Fl.fin (v a)) = ns.map fun _ => .fin (v a) := by simp [hlen]
  rw [e3, e4, e5, allClose_self, allClose_self, allClose_self, allClose_self]
  rfl

/-- `frontdoor_scm` returns, and its SCM always gives the units asked for -/
theorem front_gives {r : Example.Rng W} (hr : ∀ w, (r.unif w).1 ∈ Set.Ico (0 : ℝ) 1) (w : W) :
    ∃ F w', Example.frontDoor r w = (.ok F, w') ∧ ∀ (env : BanditEnv W (Cell ℝ)) (u : ℕ), Gives { env with generate := Example.generate F.scm } u := by
  have hp : 0 ≤ 1 / 5 + (4 / 5 - 1 / 5) * (r.unif w).1 ∧ 1 / 5 + (4 / 5 - 1 / 5) * (r.unif w).1 ≤ 1 := by
    obtain ⟨h1, h2⟩ := hr w
    constructor <;> linarith
  unfold Example.frontDoor Example.uniform
  simp only
  obtain ⟨S, hS, h⟩ := Example.C65_frontdoor_sampler r _ (-1 + (1 - -1) * (r.unif (r.unif w).2).1) (5 + (10 - 5) * (r.unif (r.unif (r.unif w).2).2).1)
    (-(3 / 10) + (3 / 10 - -(3 / 10)) * (r.unif (r.unif (r.unif (r.unif w).2).2).2).1) (-(3 / 10) + (3 / 10 - -(3 / 10)) * (r.unif (r.unif (r.unif (r.unif (r.unif w).2).2).2).2).1) hp
  rw [hS]
  refine ⟨_, _, rfl, fun env u w1 => ?_⟩
  obtain ⟨us, vs, ts, es, w1', w2, w3, w4, e1, e2, e3, -, e5⟩ := h u w1
  refine ⟨_, w4, by simp only [Example.generate, e5]; rfl, ?_⟩
  have l1 := Example.drawN_length r.unif u w1
  have l2 := Example.drawN_length r.unif u w1'
  have l3 := Example.drawN_length r.unif u w2
  rw [e1] at l1
  rw [e2] at l2
  rw [e3] at l3
  simp only at l1 l2 l3
  simp [Example.toData, Example.frontDoorData, ExpData.new, Arr.len, l1, l2, l3]

/-- the tests up to their assertions -/
theorem runThree_of {r : Example.Rng W} (hr : ∀ w, (r.unif w).1 ∈ Set.Ico (0 : ℝ) 1) (env : BanditEnv W (Cell ℝ)) {limit : ℝ} {units : ℕ} {v : Fin 3 → ℝ}
    {run : BanditEnv W (Cell ℝ) → BanditCfg (Fin 3) ℝ → Py ((Fin 3 → ConstantArm ℝ) × W) (Option (BanditData (Fin 3) ℝ))} {Post : BanditData (Fin 3) ℝ → Prop}
    (h : ∀ (env : BanditEnv W (Cell ℝ)) (s : W), Gives env units → ∃ D s',
      run env ⟨[0, 1, 2], .fin (1 / 20), .fin 0, some (.fin (1 / 20)), some (.fin limit), units⟩ (fun a => ConstantArm.new (v a) width, s) = (.ok (some D), s') ∧ Post D) (w : W) :
    ∃ D w', runThree r env limit units v run w = (.ok (some D), w') ∧ Post D := by
  obtain ⟨F, w1, e1, hg⟩ := front_gives hr w
  obtain ⟨D, ⟨heap, w2⟩, e2, hD⟩ := h _ w1 (hg env units)
  have hc : construct [(0 : Fin 3), 1, 2] (some (.fin (1 / 20 : ℝ))) (some (.fin 0)) (some (.fin (1 / 20))) (some (.fin limit)) units =
      .ok ⟨[0, 1, 2], .fin (1 / 20), .fin 0, some (.fin (1 / 20)), some (.fin limit), units⟩ := by
    norm_num [construct, Fl.lt]
  refine ⟨D, w2, ?_, hD⟩
  unfold runThree
  rw [e1]
  simp only
  rw [hc]
  simp only
  unfold threeArms
  rw [e2]

/-- **C107** The test of uniform sampling passes, for all draws of the example. -/
theorem C107_uniform_test {r : Example.Rng W} (hr : ∀ w, (r.unif w).1 ∈ Set.Ico (0 : ℝ) 1) (env : BanditEnv W (Cell ℝ)) {fuel : ℕ} (hf : 4 ≤ fuel) (w : W) :
    ∃ w', testUniform r env fuel w = (.ok (some true), w') := by
  obtain ⟨D, w', e, hD, hb⟩ := runThree_of hr env (limit := 50) (units := 5) (v := ![1, 2, 2]) (run := fun env cfg => uniformRun env ConstantArm.ops cfg none fuel)
    (Post := fun D => ConstantHistory [0, 1, 2] ![1, 2, 2] (fun _ => widthR) (fun _ _ => 5) 4 D ∧ D.best = [0]) (fun env s hg =>
      C107_uniform_trace (cfg := ⟨[0, 1, 2], .fin (1 / 20), .fin 0, some (.fin (1 / 20)), some (.fin 50), 5⟩) (w := fun _ => widthR) (T := 3) (best := [0]) (by decide) (by decide)
        (fun a m hm => width_eq hm) (fun a m => widthR_nonneg m) (by decide) hg rfl rfl le_rfl
        (by
          intro t ht
          have hw : (1 : ℝ) < widthR (5 * (t + 1)) := lt_widthR (by norm_num) (by
            have : ((5 * (t + 1) : ℕ) : ℝ) ≤ 15 := by exact_mod_cast (by omega : 5 * (t + 1) ≤ 15)
            rw [one_pow, lt_div_iff₀ (by positivity)]
            linarith)
          refine ⟨?_, fun ⟨b, hb, h⟩ => ?_⟩
          · have : ((15 * (t + 1) : ℕ) : ℝ) ≤ 50 := by exact_mod_cast (by omega : 15 * (t + 1) ≤ 50)
            simp only [List.length_cons, List.length_nil, Fl.lt, decide_eq_false_iff_not, not_lt]
            exact this
          · have h1 := h (b + 1) (by fin_cases b <;> simp) (by fin_cases b <;> simp)
            simp only at h1
            fin_cases b <;> simp at h1 <;> linarith)
        (Or.inl ⟨by norm_num [Fl.lt], (filter_lowest (by decide) (by simp) fun a _ ha => by
          fin_cases a <;> simp_all).symm⟩) (by omega) s) w
  refine ⟨w', ?_⟩
  unfold testUniform
  rw [Py.bind_apply, e]
  have c0 := checkArm_of hD 0 (ns := [5, 5, 5, 5]) (ks := [5, 10, 15, 20]) (by decide) (by decide) (by decide)
  have c1 := checkArm_of hD 1 (ns := [5, 5, 5, 5]) (ks := [5, 10, 15, 20]) (by decide) (by decide) (by decide)
  have c2 := checkArm_of hD 2 (ns := [5, 5, 5, 5]) (ks := [5, 10, 15, 20]) (by decide) (by decide) (by decide)
  simp only [Matrix.cons_val] at c0 c1 c2
  simp [Py.pure_apply, hb, c0, c1, c2]

/-- the units of the arms in the test of successive elimination -/
def unitsSe (a : Fin 3) (t : ℕ) : ℕ := if a = 2 ∧ 2 ≤ t then 0 else 10

theorem alive_mid {t : ℕ} (ht : t ≤ 5) : Alive ![1, 9 / 4, 3] widthR 10 1 t 1 := fun s h0 h1 => by
  have hs : ((10 * s : ℕ) : ℝ) ≤ 50 := by exact_mod_cast (by omega : 10 * s ≤ 50)
  have hs0 : (0 : ℝ) < ((10 * s : ℕ) : ℝ) := by exact_mod_cast (by omega : 0 < 10 * s)
  have hw : (5 / 8 : ℝ) < widthR (10 * s) := lt_widthR (by norm_num) (by
    rw [lt_div_iff₀ hs0]
    linarith)
  simp only [Matrix.cons_val]
  linarith

theorem alive_high (t : ℕ) : Alive ![1, 9 / 4, 3] widthR 10 1 t 2 ↔ t < 2 := by
  constructor
  · intro h
    by_contra ht
    have h1 := h 2 (by omega) (by omega)
    rw [show widthR (10 * 2) = 1 from widthR_at (by norm_num) (by norm_num)] at h1
    simp only [Matrix.cons_val] at h1
    norm_num at h1
  · intro ht s h0 h1
    obtain rfl : s = 1 := by omega
    have hw : (1 : ℝ) < widthR (10 * 1) := lt_widthR (by norm_num) (by norm_num)
    simp only [Matrix.cons_val]
    linarith

theorem seUnits_eq (a : Fin 3) {t : ℕ} (ht : t < 5) : seUnits ![1, 9 / 4, 3] widthR 10 1 a t = unitsSe a t := by
  unfold seUnits unitsSe
  fin_cases a
  · have : Alive ![1, 9 / 4, 3] widthR 10 1 t 0 := fun s h0 _ => by
      have := widthR_pos (n := 10 * s) (by omega)
      simp only [Matrix.cons_val]
      linarith
    simp [this]
  · simp [alive_mid (show t ≤ 5 by omega)]
  · by_cases h : t < 2
    · simp [alive_high, h]
    · simp [alive_high, h, show 2 ≤ t by omega]

theorem seUnits_sum (a : Fin 3) {t : ℕ} (ht : t ≤ 5) : ∑ i ∈ Finset.range t, seUnits ![1, 9 / 4, 3] widthR 10 1 a i = ∑ i ∈ Finset.range t, unitsSe a i :=
  Finset.sum_congr rfl fun i hi => seUnits_eq a (by have := Finset.mem_range.1 hi; omega)

/-- **C107** The test of successive elimination passes, for all draws of the example. -/
theorem C107_elimination_test {r : Example.Rng W} (hr : ∀ w, (r.unif w).1 ∈ Set.Ico (0 : ℝ) 1) (env : BanditEnv W (Cell ℝ)) {fuel : ℕ} (hf : 6 ≤ fuel) (w : W) :
    ∃ w', testElimination r env fuel w = (.ok (some true), w') := by
  have htot : ∀ t, t ≤ 5 → ([0, 1, 2].map fun a : Fin 3 => ∑ i ∈ Finset.range t, seUnits ![1, 9 / 4, 3] widthR 10 1 a i).sum =
      ([0, 1, 2].map fun a : Fin 3 => ∑ i ∈ Finset.range t, unitsSe a i).sum := fun t ht => congrArg List.sum (List.map_congr_left fun a _ => seUnits_sum a ht)
  obtain ⟨D, w', e, hD, hb⟩ := runThree_of hr env (limit := 100) (units := 10) (v := ![1, 9 / 4, 3]) (run := fun env cfg => seRun env ConstantArm.ops cfg none fuel)
    (Post := fun D => ConstantHistory [0, 1, 2] ![1, 9 / 4, 3] (fun _ => widthR) (seUnits ![1, 9 / 4, 3] widthR 10 1) 5 D ∧ D.best = [0]) (fun env s hg =>
      C107_elimination_trace (cfg := ⟨[0, 1, 2], .fin (1 / 20), .fin 0, some (.fin (1 / 20)), some (.fin 100), 10⟩) (w := widthR) (T := 4) (best := [0]) (b := 0) (by decide)
        (fun a m hm => width_eq hm) (fun m hm => widthR_pos hm) (by decide) hg rfl (by simp) (by
          intro a _
          fin_cases a <;> norm_num) (fun a t => rfl)
        (by
          intro t ht
          have h1 : ([0, 1, 2].map fun a : Fin 3 => ∑ i ∈ Finset.range t, unitsSe a i).sum ≤ 100 := by
            interval_cases t <;> decide
          have h2 : (([0, 1, 2].map fun a : Fin 3 => ∑ i ∈ Finset.range t, seUnits ![1, 9 / 4, 3] widthR 10 1 a i).sum : ℕ) ≤ (100 : ℝ) := by
            rw [htot t (by omega)]
            exact_mod_cast h1
          simp only [Fl.lt, decide_eq_false_iff_not, not_lt]
          exact h2)
        ⟨1, by simp, by decide, alive_mid (by omega)⟩
        (Or.inr ⟨⟨1, by simp, by decide, alive_mid (by omega)⟩, by
          have h1 : ([0, 1, 2].map fun a : Fin 3 => ∑ i ∈ Finset.range 5, unitsSe a i).sum = 120 := by decide
          have h2 : (100 : ℝ) < (([0, 1, 2].map fun a : Fin 3 => ∑ i ∈ Finset.range 5, seUnits ![1, 9 / 4, 3] widthR 10 1 a i).sum : ℕ) := by
            rw [htot 5 le_rfl, h1]
            norm_num
          simp only [Fl.lt, decide_eq_true_eq]
          exact h2, (filter_lowest (by decide) (by simp) fun a _ ha => by
          fin_cases a <;> norm_num at *).symm⟩) (by omega) s) w
  refine ⟨w', ?_⟩
  unfold testElimination
  rw [Py.bind_apply, e]
  have e1 : ∀ a, (List.range 5).map (seUnits ![1, 9 / 4, 3] widthR 10 1 a) = (List.range 5).map (unitsSe a) := fun a => List.map_congr_left fun t ht => seUnits_eq a (List.mem_range.1 ht)
  have e2 : ∀ a, (List.range 5).map (fun t => ∑ i ∈ Finset.range (t + 1), seUnits ![1, 9 / 4, 3] widthR 10 1 a i) = (List.range 5).map fun t => ∑ i ∈ Finset.range (t + 1), unitsSe a i :=
    fun a => List.map_congr_left fun t ht => seUnits_sum a (by have := List.mem_range.1 ht; omega)
  have c0 := checkArm_of hD 0 (ns := [10, 10, 10, 10, 10]) (ks := [10, 20, 30, 40, 50]) ((e1 0).trans (by decide)) ((e2 0).trans (by decide)) (by decide)
  have c1 := checkArm_of hD 1 (ns := [10, 10, 10, 10, 10]) (ks := [10, 20, 30, 40, 50]) ((e1 1).trans (by decide)) ((e2 1).trans (by decide)) (by decide)
  have c2 := checkArm_of hD 2 (ns := [10, 10, 0, 0, 0]) (ks := [10, 20, 20, 20, 20]) ((e1 2).trans (by decide)) ((e2 2).trans (by decide)) (by decide)
  simp only [Matrix.cons_val] at c0 c1 c2
  simp only [Option.map_some, hb, c0, c1, c2]
  rfl

/-- the second arm of the rounds of the test of LUCB -/
def challenger (t : ℕ) : Fin 3 := if t = 1 then 2 else 1

/-- the units of the arms in the test of LUCB -/
def unitsLucb (a : Fin 3) : ℕ → ℕ
  | 0 => 5
  | t + 1 => if a = 0 ∨ a = challenger t then 5 else 0

theorem challenger_mid {v x : Fin 3 → ℝ} (h : v 1 - x 1 < v 2 - x 2) (h1 : v 0 - x 0 < v 1 - x 1) (h2 : v 0 + x 0 < v 1 + x 1) (h3 : v 0 + x 0 < v 2 + x 2) : Challenger [0, 1, 2] v x 0 1 where
  mem := by simp
  ne := by decide
  lcb := fun a _ h0 ha => by fin_cases a <;> simp_all
  tieL := h1.ne
  tieU := fun a _ h0 => by fin_cases a <;> first | exact absurd rfl h0 | exact h2.ne' | exact h3.ne'

theorem challenger_high {v x : Fin 3 → ℝ} (h : v 2 - x 2 < v 1 - x 1) (h1 : v 0 - x 0 < v 2 - x 2) (h2 : v 0 + x 0 < v 1 + x 1) (h3 : v 0 + x 0 < v 2 + x 2) : Challenger [0, 1, 2] v x 0 2 where
  mem := by simp
  ne := by decide
  lcb := fun a _ h0 ha => by fin_cases a <;> simp_all
  tieL := h1.ne
  tieU := fun a _ h0 => by fin_cases a <;> first | exact absurd rfl h0 | exact h2.ne' | exact h3.ne'

theorem not_separated {x : Fin 3 → ℝ} (h0 : 1 ≤ x 0) (h1 : 1 ≤ x 1) (h2 : 1 ≤ x 2) : ¬ ∃ b, Separated [0, 1, 2] 0 ![1, 2, 5 / 2] x b := by
  rintro ⟨b, -, h⟩
  have h3 := h (if b = 0 then 1 else 0) (by split <;> simp) (by fin_cases b <;> simp)
  fin_cases b <;> simp at h3 <;> linarith

/-- **C107** The test of LUCB passes, for all draws of the example. -/
theorem C107_lucb_test {r : Example.Rng W} (hr : ∀ w, (r.unif w).1 ∈ Set.Ico (0 : ℝ) 1) (env : BanditEnv W (Cell ℝ)) {fuel : ℕ} (hf : 5 ≤ fuel) (w : W) :
    ∃ w', testLucb r env fuel w = (.ok (some true), w') := by
  have w5 : widthR 5 = 2 := widthR_at (by norm_num) (by norm_num)
  have w20 : widthR 20 = 1 := widthR_at (by norm_num) (by norm_num)
  have w10 : (7 / 5 : ℝ) < widthR 10 ∧ widthR 10 < 3 / 2 := ⟨lt_widthR (by norm_num) (by norm_num), widthR_lt (by norm_num) (by norm_num)⟩
  have w15 : (11 / 10 : ℝ) < widthR 15 ∧ widthR 15 < 6 / 5 := ⟨lt_widthR (by norm_num) (by norm_num), widthR_lt (by norm_num) (by norm_num)⟩
  have s0 : ∀ a, ∑ i ∈ Finset.range (0 + 1), unitsLucb a i = 5 := by decide
  have s1 : ∀ a, ∑ i ∈ Finset.range (1 + 1), unitsLucb a i = ![10, 10, 5] a := by decide
  have s2 : ∀ a, ∑ i ∈ Finset.range (2 + 1), unitsLucb a i = ![15, 10, 10] a := by decide
  have s3 : ∀ a, ∑ i ∈ Finset.range (3 + 1), unitsLucb a i = ![20, 15, 10] a := by decide
  obtain ⟨D, w', e, hD, hb⟩ := runThree_of hr env (limit := 50) (units := 5) (v := ![1, 2, 5 / 2]) (run := fun env cfg => lucbRun env ConstantArm.ops cfg none fuel)
    (Post := fun D => ConstantHistory [0, 1, 2] ![1, 2, 5 / 2] (fun _ => widthR) unitsLucb 5 D ∧ D.best = [0]) (fun env s hg =>
      C107_lucb_trace (cfg := ⟨[0, 1, 2], .fin (1 / 20), .fin 0, some (.fin (1 / 20)), some (.fin 50), 5⟩) (w := fun _ => widthR) (T := 4) (b := 0) (c := challenger) (by decide)
        (fun a m hm => width_eq hm) (fun a m => widthR_nonneg m) (by decide) hg rfl rfl le_rfl (by simp) (by
          intro a _ ha
          fin_cases a <;> norm_num at *) (fun a => rfl) (fun a t => rfl)
        (by
          intro t ht
          refine ⟨?_, ?_⟩
          · have h1 : (((3 + 2 * t) * 5 : ℕ) : ℝ) ≤ 50 := by exact_mod_cast (by omega : (3 + 2 * t) * 5 ≤ 50)
            simp only [Fl.lt, decide_eq_false_iff_not, not_lt]
            exact h1
          · obtain ⟨a1, a2⟩ := w10
            obtain ⟨b1, b2⟩ := w15
            interval_cases t
            · simp only [s0, w5]
              refine challenger_mid ?_ ?_ ?_ ?_ <;> simp only [Matrix.cons_val] <;> norm_num
            · simp only [s1]
              refine challenger_high ?_ ?_ ?_ ?_ <;> simp only [Matrix.cons_val] <;> linarith
            · simp only [s2]
              refine challenger_mid ?_ ?_ ?_ ?_ <;> simp only [Matrix.cons_val] <;> linarith
            · simp only [s3]
              refine challenger_mid ?_ ?_ ?_ ?_ <;> simp only [Matrix.cons_val] <;> linarith)
        (by
          intro t h0 ht
          obtain ⟨a1, a2⟩ := w10
          obtain ⟨b1, b2⟩ := w15
          interval_cases t
          · simp only [s1]
            refine not_separated ?_ ?_ ?_ <;> simp only [Matrix.cons_val] <;> linarith
          · simp only [s2]
            refine not_separated ?_ ?_ ?_ <;> simp only [Matrix.cons_val] <;> linarith
          · simp only [s3]
            refine not_separated ?_ ?_ ?_ <;> simp only [Matrix.cons_val] <;> linarith)
        (Or.inr (by norm_num [Fl.lt])) (by omega) s) w
  refine ⟨w', ?_⟩
  unfold testLucb
  rw [Py.bind_apply, e]
  have c0 := checkArm_of hD 0 (ns := [5, 5, 5, 5, 5]) (ks := [5, 10, 15, 20, 25]) (by decide) (by decide) (by decide)
  have c1 := checkArm_of hD 1 (ns := [5, 5, 0, 5, 5]) (ks := [5, 10, 10, 15, 20]) (by decide) (by decide) (by decide)
  have c2 := checkArm_of hD 2 (ns := [5, 0, 5, 0, 0]) (ks := [5, 5, 10, 10, 10]) (by decide) (by decide) (by decide)
  simp only [Matrix.cons_val] at c0 c1 c2
  simp only [Option.map_some, hb, c0, c1, c2]
  rfl

/-! ## Examples -/

/-- a source of random numbers whose uniform draws are 1/2 -/
noncomputable def half : Example.Rng Unit := ⟨fun w => (1 / 2, w), fun w => (0, w)⟩

/-- choices of the first arm -/
noncomputable def firstArm : BanditEnv Unit (Cell ℝ) where
  generate := fun _ w => (.error .valueError, w)
  choice := fun _ h w => (⟨0, h⟩, w)
  choice2 := fun _ h w => (⟨(⟨0, by omega⟩, ⟨1, by omega⟩), by simp⟩, w)

example : ∃ w', testUniform half firstArm 4 () = (.ok (some true), w') := C107_uniform_test (fun _ => by norm_num [half]) _ le_rfl _

example : ∃ w', testElimination half firstArm 6 () = (.ok (some true), w') := C107_elimination_test (fun _ => by norm_num [half]) _ le_rfl _

example : ∃ w', testLucb half firstArm 5 () = (.ok (some true), w') := C107_lucb_test (fun _ => by norm_num [half]) _ le_rfl _

/-- a data source of units without values -/
def plain : BanditEnv Unit Unit where
  generate := fun n w => (.ok (ExpData.new (some (.d1 (List.replicate n ()))) none none), w)
  choice := fun _ h w => (⟨0, h⟩, w)
  choice2 := fun _ h w => (⟨(⟨0, by omega⟩, ⟨1, by omega⟩), by simp⟩, w)

/-- two arms, no sample limit -/
def two : BanditCfg (Fin 2) ℚ := ⟨[0, 1], .fin (1 / 20), .fin 0, some (.fin (1 / 20)), some .pinf, 1⟩

theorem plain_gives : Gives plain two.unitsPerRound := fun w => ⟨_, w, rfl, by simp [ExpData.new, Arr.len, two]⟩

/-- widths `2 / n` -/
def twoWidth (m : ℕ) : ℚ := 2 / m

theorem twoWidth_nonneg (m : ℕ) : 0 ≤ twoWidth m := by unfold twoWidth; positivity

example : ∃ D s', uniformRun plain ConstantArm.ops two none 2 (fun a => ConstantArm.new (![0, 3] a) (fun m => .fin (twoWidth m)), ()) = (.ok (some D), s') ∧
    ConstantHistory [0, 1] ![0, 3] (fun _ => twoWidth) (fun _ _ => 1) 2 D ∧ D.best = [0] :=
  C107_uniform_trace (cfg := two) (T := 1) (tol := 0) (by decide) (by decide) (fun _ _ _ => rfl) (fun _ => twoWidth_nonneg) (by decide) plain_gives rfl rfl le_rfl
    (by
      intro t ht
      obtain rfl : t = 0 := by omega
      refine ⟨rfl, fun ⟨b, _, h⟩ => ?_⟩
      have h1 := h (if b = 0 then 1 else 0) (by split <;> simp [two]) (by fin_cases b <;> simp)
      fin_cases b <;> norm_num [twoWidth, two] at h1)
    (Or.inr ⟨rfl, 0, ⟨by simp [two], fun c _ hc => by fin_cases c <;> norm_num [twoWidth, two] at *⟩, rfl⟩) (by omega) ()

example : ∃ D s', seRun plain ConstantArm.ops two none 3 (fun a => ConstantArm.new (![0, 3] a) (fun m => .fin (twoWidth m)), ()) = (.ok (some D), s') ∧
    ConstantHistory [0, 1] ![0, 3] (fun _ => twoWidth) (seUnits ![0, 3] twoWidth 1 0) 2 D ∧ D.best = [0] :=
  C107_elimination_trace (cfg := two) (T := 1) (b := 0) (by decide) (fun _ _ _ => rfl) (fun m hm => by unfold twoWidth; positivity) (by decide) plain_gives rfl (by simp [two])
    (by intro a _; fin_cases a <;> norm_num) (fun _ _ => rfl) (fun _ _ => rfl)
    ⟨1, by simp [two], by decide, fun s h0 h1 => by
      obtain rfl : s = 1 := by omega
      norm_num [twoWidth, two]⟩
    (Or.inl ⟨fun a _ h => by
      fin_cases a
      · rfl
      · have := h 2 (by omega) (by omega)
        norm_num [twoWidth, two] at this, rfl⟩) (by omega) ()

example : ∃ D s', lucbRun plain ConstantArm.ops two none 2 (fun a => ConstantArm.new (![0, 3] a) (fun m => .fin (twoWidth m)), ()) = (.ok (some D), s') ∧
    ConstantHistory [0, 1] ![0, 3] (fun _ => twoWidth) (fun _ _ => 1) 2 D ∧ D.best = [0] :=
  C107_lucb_trace (cfg := two) (T := 1) (tol := 0) (b := 0) (c := fun _ => 1) (by decide) (fun _ _ _ => rfl) (fun _ => twoWidth_nonneg) (by decide) plain_gives rfl rfl le_rfl (by simp [two])
    (by intro a _ ha; fin_cases a <;> norm_num at *) (fun _ => rfl) (fun a t => by fin_cases a <;> simp [two])
    (by
      intro t ht
      obtain rfl : t = 0 := by omega
      exact ⟨rfl, by simp [two], by decide, fun a _ h0 h1 => by fin_cases a <;> simp_all, by norm_num [twoWidth], fun a _ h0 => by fin_cases a <;> norm_num [twoWidth] at *⟩)
    (by omega)
    (Or.inl ⟨by omega, 0, by simp [two], fun c _ hc => by fin_cases c <;> norm_num [twoWidth] at *⟩) (by omega) ()

end BanditsTest
end Verif
