import Verif.Lemmas.Termination

/-!
# Property C93: runs end even without a sample limit
-/

set_option linter.unusedSectionVars false
set_option linter.unusedSimpArgs false

namespace Verif
namespace Bandit

variable {I S W β α : Type} [Field α] [LinearOrder α] [IsStrictOrderedRing α] [DecidableEq I]
variable {env : BanditEnv W β} {ops : ArmOps S W β α} {cfg : BanditCfg I α} {all : Option (ExpData β)} {heap : I → S} {w0 : W}

/-- finitely many thresholds have a common bound -/
theorem common_bound (arms : List I) (p : I → Nat → Prop) (h : ∀ a ∈ arms, ∃ M, ∀ n, M ≤ n → p a n) :
    ∃ M, ∀ n, M ≤ n → ∀ a ∈ arms, p a n := by
  induction arms with
  | nil => exact ⟨0, by simp⟩
  | cons a arms ih =>
    obtain ⟨M1, h1⟩ := h a (by simp)
    obtain ⟨M2, h2⟩ := ih fun b hb => h b (by simp [hb])
    refine ⟨max M1 M2, fun n hn b hb => ?_⟩
    rcases List.mem_cons.mp hb with rfl | hb
    · exact h1 n (by omega)
    · exact h2 n (by omega) b hb

/-- **C93** Uniform: if the bounds and estimates of all arms come arbitrarily close to the true values when the arms are updated often
enough, and one arm is better than all others by more than `error_tol`, then the run ends - whatever the sample limit. -/
theorem C93_uniform (hnd : cfg.arms.Nodup) {τ : α} (htol : cfg.errorTol = .fin τ) (hτ : 0 ≤ τ) {K : S → Nat} (hK : Counts ops K)
    (hno : NeverRaises (uniformRun env ops cfg all) (heap, w0)) {θ : I → α}
    (hset : ∀ a ∈ cfg.arms, Settles ops K (uniformRun env ops cfg all) (heap, w0) a (θ a))
    {b : I} {gap : α} (hb : BestBy cfg.arms θ gap b) (hgap : τ < gap) : Ends (uniformRun env ops cfg all) (heap, w0) := by
  by_contra hne
  obtain ⟨f, f0, f1, f2⟩ := Py.loop_forever (body := uniformRound env ops cfg all) Hist.empty (heap, w0) (goes_on hno hne)
  have hstep := fun n => uniform_step hnd (f1 n)
  have hcount : ∀ a ∈ cfg.arms, ∀ n, n ≤ K ((f n).2.1 a) := fun a ha => counts_all hK fun n => by
    obtain ⟨ps, h1, -, h2, -⟩ := hstep n
    exact ⟨ps, h2, by rw [h1]; exact ha⟩
  have he : 0 < (gap - τ) / 4 := by linarith
  obtain ⟨M, hM⟩ := common_bound cfg.arms (fun a n => Settled ops ((f n).2.1 a) (θ a) ((gap - τ) / 4)) fun a ha => by
    obtain ⟨M, hM⟩ := hset a ha _ he
    exact ⟨M, fun n hn => hM n _ (f2 n) (hn.trans (hcount a ha n))⟩
  obtain ⟨ps, -, -, -, best, hbest⟩ := hstep M
  exact settled_ends hnd htol hτ (hM (M + 1) (by omega)) hb (by linarith) hbest

/-- a decreasing sequence of lists is finally constant -/
theorem lists_stop (c : Nat → List I) (h : ∀ n, ∃ p : I → Bool, c (n + 1) = (c n).filter p) : ∃ N, ∀ n, N ≤ n → c n = c N := by
  have hmono : Antitone fun n => (c n).length := antitone_nat_of_succ_le fun n => by
    obtain ⟨p, hp⟩ := h n
    rw [hp]; exact List.length_filter_le _ _
  obtain ⟨N, hN⟩ : ∃ N, ∀ n, N ≤ n → (c n).length = (c N).length := by
    have hwf : ∃ N, ∀ n, (c N).length ≤ (c n).length := by
      obtain ⟨m, ⟨N, hN⟩, hmin⟩ := WellFounded.has_min Nat.lt_wfRel.wf (Set.range fun n => (c n).length) ⟨_, 0, rfl⟩
      refine ⟨N, fun n => ?_⟩
      have := hmin _ ⟨n, rfl⟩
      simp only at hN
      rw [hN]
      exact Nat.not_lt.mp this
    obtain ⟨N, hN⟩ := hwf
    exact ⟨N, fun n hn => le_antisymm (hmono hn) (hN n)⟩
  refine ⟨N, fun n hn => ?_⟩
  induction n, hn using Nat.le_induction with
  | base => rfl
  | succ n hn ih =>
    obtain ⟨p, hp⟩ := h n
    rw [← ih]
    have hsub : (c (n + 1)).Sublist (c n) := by rw [hp]; exact List.filter_sublist
    exact hsub.eq_of_length (by rw [hN n hn, hN (n + 1) (by omega)])

/-- **C93 (partial)** Successive elimination: likewise, if no two arms have the same true value. -/
theorem C93_successive_elimination_partial (hnd : cfg.arms.Nodup) {K : S → Nat} (hK : Counts ops K)
    (hno : NeverRaises (seRun env ops cfg all) (heap, w0)) {θ : I → α}
    (hset : ∀ a ∈ cfg.arms, Settles ops K (seRun env ops cfg all) (heap, w0) a (θ a))
    (hdist : ∀ a ∈ cfg.arms, ∀ b ∈ cfg.arms, a ≠ b → θ a ≠ θ b) : Ends (seRun env ops cfg all) (heap, w0) := by
  by_contra hne
  obtain ⟨f, f0, f1, f2⟩ := Py.loop_forever (body := seRound env ops cfg all) (Hist.empty, cfg.arms) (heap, w0) (goes_on hno hne)
  have hsub : ∀ n, (f n).1.2.Sublist cfg.arms := by
    intro n
    induction n with
    | zero => rw [f0]
    | succ n ih =>
      obtain ⟨-, ps, h1, -, -, -, m, -, -, h2⟩ := se_step hnd ih (f1 n)
      rw [h2, RoundRec.arms, h1]
      exact List.filter_sublist.trans ih
  have hstep := fun n => se_step hnd (hsub n) (f1 n)
  obtain ⟨N, hN⟩ := lists_stop (fun n => (f n).1.2) fun n => by
    obtain ⟨-, ps, h1, -, -, -, m, -, -, h2⟩ := hstep n
    exact ⟨_, by rw [h2, RoundRec.arms, h1]⟩
  have hanti : ∀ n, (f N).1.2 ⊆ (f n).1.2 := by
    have hle : ∀ k n, (f (n + k)).1.2 ⊆ (f n).1.2 := by
      intro k
      induction k with
      | zero => intro n; exact List.Subset.refl _
      | succ k ih =>
        intro n
        obtain ⟨-, ps, h1, -, -, -, m, -, -, h2⟩ := hstep (n + k)
        refine List.Subset.trans ?_ (ih n)
        rw [← Nat.add_assoc, h2, RoundRec.arms, h1]
        exact List.filter_subset_self _
    intro n
    rcases le_total N n with h | h
    · rw [hN n h]; exact List.Subset.refl _
    · obtain ⟨k, rfl⟩ := Nat.exists_eq_add_of_le h
      exact hle k n
  have hcount : ∀ a ∈ (f N).1.2, ∀ n, n ≤ K ((f n).2.1 a) := fun a ha => counts_all hK fun n => by
    obtain ⟨-, ps, h1, -, h2, -⟩ := hstep n
    exact ⟨ps, h2, by rw [h1]; exact hanti n ha⟩
  obtain ⟨a, b, ha, hb, hlt⟩ : ∃ a b, a ∈ (f N).1.2 ∧ b ∈ (f N).1.2 ∧ θ b < θ a := by
    have h2 := (hstep N).1
    have hndN := hnd.sublist (hsub N)
    have hs := (hsub N).subset
    match hc : (f N).1.2, h2 with
    | x :: y :: l, _ =>
      rw [hc] at hndN hs
      have hxy : x ≠ y := by
        rintro rfl; simp at hndN
      rcases lt_or_gt_of_ne (hdist x (hs (by simp)) y (hs (by simp)) hxy) with h | h
      · exact ⟨y, x, by simp, by simp, h⟩
      · exact ⟨x, y, by simp, by simp, h⟩
  have he : 0 < (θ a - θ b) / 8 := by linarith
  obtain ⟨M, hM⟩ := common_bound (f N).1.2 (fun c n => Settled ops ((f n).2.1 c) (θ c) ((θ a - θ b) / 8)) fun c hc => by
    obtain ⟨M, hM⟩ := hset c ((hsub N).subset hc) _ he
    exact ⟨M, fun n hn => hM n _ (f2 n) (hn.trans (hcount c hc n))⟩
  obtain ⟨-, ps, h1, -, -, hel⟩ := hstep (N + M)
  have harms : (⟨ps, (f (N + M + 1)).2.1⟩ : RoundRec I S β α).arms = (f N).1.2 := by
    rw [RoundRec.arms, h1, hN (N + M) (by omega)]
  refine settled_drops hel (θ := θ) (e := (θ a - θ b) / 8) (a := a) (b := b) ?_ (by rw [harms]; exact ha) (by rw [harms]; exact hb) (by linarith) ?_
  · rw [harms]; exact hM (N + M + 1) (by omega)
  · rw [hN (N + M + 1) (by omega)]; exact ha

/-- an arm is updated for ever or frozen at last -/
theorem frozen {K : S → Nat} (hK : Counts ops K) {heap : Nat → I → S} (a : I)
    (hp : ∀ n, ∃ ps, Pulls ops ps (heap n) (heap (n + 1))) :
    (∀ M, ∃ n, M ≤ K (heap n a)) ∨ ∃ N, ∀ n, N ≤ n → K (heap n a) = K (heap N a) := by
  have hmono : Monotone fun n => K (heap n a) := monotone_nat_of_le_succ fun n => by
    obtain ⟨ps, h⟩ := hp n
    rw [Pulls.counts hK h]; omega
  by_contra h
  push Not at h
  obtain ⟨⟨M, hM⟩, h⟩ := h
  have : ∀ k, ∃ n, k ≤ K (heap n a) := by
    intro k
    induction k with
    | zero => exact ⟨0, by omega⟩
    | succ k ih =>
      obtain ⟨n, hn⟩ := ih
      obtain ⟨m, hm, hne⟩ := h n
      have := hmono hm
      simp only at this
      exact ⟨m, by omega⟩
  obtain ⟨n, hn⟩ := this M
  have := hM n
  omega

/-- **C93 (partial)** LUCB: likewise, if any two arms differ by more than `error_tol` and there are never ties between the arms. -/
theorem C93_lucb_partial (hnd : cfg.arms.Nodup) {τ : α} (htol : cfg.errorTol = .fin τ) {K : S → Nat} (hK : Counts ops K)
    (hno : NeverRaises (lucbRun env ops cfg all) (heap, w0)) {θ : I → α}
    (hset : ∀ a ∈ cfg.arms, Settles ops K (lucbRun env ops cfg all) (heap, w0) a (θ a))
    (hgen : ∀ n s', 1 ≤ n → lucbRun env ops cfg all n (heap, w0) = (.ok none, s') → GenericValues ops cfg.arms s'.1)
    (hdist : ∀ a ∈ cfg.arms, ∀ b ∈ cfg.arms, a ≠ b → τ < |θ a - θ b|) : Ends (lucbRun env ops cfg all) (heap, w0) := by
  by_contra hne
  have hgo := goes_on hno hne
  obtain ⟨h0, s0, hloop⟩ : ∃ h0 s0, ∀ n, lucbRun env ops cfg all n (heap, w0) = Py.loop (lucbRound env ops cfg all) n h0 s0 := by
    obtain ⟨s', h⟩ := hgo 0
    unfold lucbRun at h
    obtain ⟨d, s1, e1, h⟩ := Arm.bind_inv h
    obtain ⟨h1, s2, e2, -⟩ := Arm.bind_inv h
    refine ⟨addSamples (cfg.arms.length * cfg.unitsPerRound) h1, s2, fun n => ?_⟩
    unfold lucbRun
    rw [Py.bind_apply, e1]
    dsimp only
    rw [Py.bind_apply, e2]
  obtain ⟨f, f0, f1, f2⟩ := Py.loop_forever h0 s0 fun n => by rw [← hloop]; exact hgo n
  have hstep := fun n => lucb_step hnd (f1 n)
  have hpulls : ∀ n, ∃ ps, Pulls ops ps (f n).2.1 (f (n + 1)).2.1 := fun n => by
    obtain ⟨-, -, -, ps, -, -, h, -⟩ := hstep n
    exact ⟨ps, h⟩
  -- arms that are updated for ever settle, the others are not updated any more
  have hev : ∀ a ∈ cfg.arms, ∃ M, ∀ n, M ≤ n → (K ((f (n + 1)).2.1 a) = K ((f n).2.1 a)) ∨
      (∀ b ∈ cfg.arms, a ≠ b → Settled ops ((f n).2.1 a) (θ a) ((|θ a - θ b| - τ) / 8)) := by
    intro a ha
    rcases frozen hK (heap := fun n => (f n).2.1) a hpulls with h | ⟨N, h⟩
    · have hmono : Monotone fun n => K ((f n).2.1 a) := monotone_nat_of_le_succ fun n => by
        obtain ⟨ps, h⟩ := hpulls n
        rw [Pulls.counts hK h]; omega
      obtain ⟨M, hM⟩ := common_bound cfg.arms (fun b n => a ≠ b → Settled ops ((f n).2.1 a) (θ a) ((|θ a - θ b| - τ) / 8)) fun b hb => by
        by_cases hab : a = b
        · exact ⟨0, fun _ _ h => absurd hab h⟩
        · obtain ⟨M, hM⟩ := hset a ha ((|θ a - θ b| - τ) / 8) (by linarith [hdist a ha b hb hab])
          obtain ⟨n0, hn0⟩ := h M
          exact ⟨n0, fun n hn _ => hM n _ (by rw [hloop]; exact f2 n) (hn0.trans (hmono hn))⟩
      exact ⟨M, fun n hn => Or.inr (hM n hn)⟩
    · exact ⟨N, fun n hn => Or.inl (by rw [h n hn, h (n + 1) (by omega)])⟩
  obtain ⟨M, hM⟩ := common_bound cfg.arms _ hev
  obtain ⟨-, -, -, -, -, -, -, best, hbest⟩ := hstep M
  obtain ⟨chosen, s1, hsel, ps, hps, -, hpl, -⟩ := hstep (M + 1)
  obtain ⟨l, u, v, hval, hties⟩ := hgen (M + 1) _ (by omega) (by rw [hloop]; exact f2 (M + 1))
  have el : ∀ a ∈ cfg.arms, lcbV ops (f (M + 1)).2.1 a = .fin (l a) := fun a ha => by simp [lcbV, (hval a ha).1]
  have eu : ∀ a ∈ cfg.arms, ucbV ops (f (M + 1)).2.1 a = .fin (u a) := fun a ha => by simp [ucbV, (hval a ha).2.1]
  have ev : ∀ a ∈ cfg.arms, varV ops (f (M + 1)).2.1 a = .fin (v a) := fun a ha => by simp [varV, (hval a ha).2.2]
  obtain ⟨p, q, rfl, hpq, hp, hq, h1, h2, h3⟩ := select_overlap (w0 := (f (M + 1)).2.2) hnd htol el eu ev
    (fun a ha b hb h => by by_contra hab; exact (hties a ha b hb hab).1 h)
    (fun a ha b hb h => by by_contra hab; exact (hties a ha b hb hab).2.1 h)
    (fun a ha b hb h => by by_contra hab; exact (hties a ha b hb hab).2.2 h) hbest hsel
  have hset' : ∀ a ∈ [p, q], a ∈ cfg.arms → ∀ b ∈ cfg.arms, a ≠ b →
      |l a - θ a| ≤ (|θ a - θ b| - τ) / 8 ∧ |u a - θ a| ≤ (|θ a - θ b| - τ) / 8 ∧ |v a - θ a| ≤ (|θ a - θ b| - τ) / 8 := by
    intro a hain ha b hb hab
    rcases hM (M + 1) (by omega) a ha with h | h
    · rw [Pulls.counts hK hpl, hps] at h
      have := List.count_pos_iff.mpr hain
      omega
    · obtain ⟨l', u', v', e1, e2, e3, e4⟩ := h b hb hab
      have hv := hval a ha
      rw [hv.1] at e1; rw [hv.2.1] at e2; rw [hv.2.2] at e3
      simp only [Option.some.injEq, Fl.fin.injEq] at e1 e2 e3
      subst e1; subst e2; subst e3
      exact e4
  obtain ⟨-, p2, p3⟩ := hset' p (by simp) hp q hq hpq
  obtain ⟨q1, -, q3⟩ := hset' q (by simp) hq p hp hpq.symm
  have hd := hdist p hp q hq hpq
  have hv := h1 q hq
  rw [abs_sub_comm (θ q) (θ p)] at q1 q3
  rw [abs_le] at p2 p3 q1 q3
  rcases abs_cases (θ p - θ q) with ⟨h, h'⟩ | ⟨h, h'⟩ <;> rw [h] at p2 p3 q1 q3 hd <;> linarith

end Bandit
end Verif
