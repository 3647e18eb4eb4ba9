import Verif.Lemmas.Narrow

/-!
# Properties C86, C87: runs end once the intervals are narrow

C35-C36 say what is true when a run stops.  Here is the converse: when a run has to stop.
-/

set_option linter.unusedSectionVars false
set_option linter.unusedSimpArgs false

namespace Verif
namespace Bandit

variable {I S W β α : Type} [Field α] [LinearOrder α] [IsStrictOrderedRing α] [DecidableEq I]
variable {env : BanditEnv W β} {ops : ArmOps S W β α} {cfg : BanditCfg I α} {all : Option (ExpData β)} {fuel : Nat}
  {heap : I → S} {w0 : W} {bd : BanditData I α} {s' : (I → S) × W}

/-- The recorded values of round `t` are those of the arms at its end. -/
theorem Ran.ivs {heap' : I → S} {rs : List (RoundRec I S β α)} (hr : Ran ops cfg heap rs bd heap') {t : Nat} {r : RoundRec I S β α}
    (ht : rs[t]? = some r) {θ : I → α} (arms : List I) (hsub : ∀ a ∈ arms, a ∈ cfg.arms) (hc : ∀ a ∈ arms, bd.Covers θ t a) :
    ∃ l u v : I → α, ∀ a ∈ arms, Iv ops r.heap θ a (l a) (u a) (v a) ∧ (bd.lcb a)[t]? = some (.fin (l a)) ∧
      (bd.ucb a)[t]? = some (.fin (u a)) ∧ (bd.var a)[t]? = some (.fin (v a)) := by
  have key : ∀ a, ∃ luv : α × α × α, a ∈ arms → Iv ops r.heap θ a luv.1 luv.2.1 luv.2.2 ∧ (bd.lcb a)[t]? = some (.fin luv.1) ∧
      (bd.ucb a)[t]? = some (.fin luv.2.1) ∧ (bd.var a)[t]? = some (.fin luv.2.2) := by
    intro a
    by_cases ha : a ∈ arms
    · obtain ⟨l, u, v, h1, h2, h3, h4, h5, h6, h7⟩ := hc a ha
      obtain ⟨e1, e2, e3, -⟩ := hr.entry (hsub a ha) ht
      refine ⟨(l, u, v), fun _ => ⟨⟨?_, ?_, ?_, h4, h5, h6, h7⟩, h1, h2, h3⟩⟩
      · rw [h1] at e1; simpa using e1.symm
      · rw [h2] at e2; simpa using e2.symm
      · rw [h3] at e3; simpa using e3.symm
    · exact ⟨(0, 0, 0), fun h => absurd h ha⟩
  choose f hf using key
  exact ⟨fun a => (f a).1, fun a => (f a).2.1, fun a => (f a).2.2, hf⟩

theorem narrow_iff {w : α} {t : Nat} {a : I} {l u : α} (hl : (bd.lcb a)[t]? = some (.fin l)) (hu : (bd.ucb a)[t]? = some (.fin u)) :
    bd.Narrow w t a ↔ u ≤ l + w := by
  constructor
  · rintro ⟨l', u', h1, h2, h3⟩
    rw [hl] at h1; rw [hu] at h2
    simp only [Option.some.injEq, Fl.fin.injEq] at h1 h2
    subst h1; subst h2; exact h3
  · intro h; exact ⟨l, u, hl, hu, h⟩

/-! ## C86 -/

/-- **C86** Uniform: let the intervals recorded in round `t` contain the estimates and the true values and be no longer
than `w`, and let all other arms be worse than arm `b` by more than `2 w + error_tol`.  Then the run ended with round `t`
and returned `b`. -/
theorem C86_uniform (hnd : cfg.arms.Nodup) (hr : uniformRun env ops cfg all fuel (heap, w0) = (.ok (some bd), s'))
    {θ : I → α} {t : Nat} {w τ gap : α} {b : I} (htol : cfg.errorTol = .fin τ) (hτ : 0 ≤ τ)
    (hc : ∀ a ∈ cfg.arms, bd.Covers θ t a) (hw : ∀ a ∈ cfg.arms, bd.Narrow w t a) (hb : BestBy cfg.arms θ gap b)
    (hgap : 2 * w + τ < gap) : bd.cum.length = t + 1 ∧ bd.best = [b] ∧
      bd.cum.getLast? = some ((t + 1) * (cfg.arms.length * cfg.unitsPerRound)) := by
  obtain ⟨rs, L, h⟩ := uniform_master hnd hr
  have hlen : bd.cum.length = rs.length := by rw [h.cum]; simp
  have hlt : t < rs.length := by
    obtain ⟨l, u, v, h1, -⟩ := hc b hb.1
    rw [← (h.ran.lengths hb.1).1]
    exact (List.getElem?_eq_some_iff.mp h1).1
  have ht : rs[t]? = some rs[t] := List.getElem?_eq_getElem hlt
  obtain ⟨l, u, v, hiv⟩ := h.ran.ivs ht cfg.arms (fun _ => id) hc
  have hw' : ∀ a ∈ cfg.arms, u a ≤ l a + w := fun a ha => (narrow_iff (hiv a ha).2.1 (hiv a ha).2.2.1).mp (hw a ha)
  have hlast : t + 1 = rs.length := by
    by_contra hne
    obtain ⟨best, hbest⟩ := h.going rs[t] (by
      rw [List.mem_iff_getElem?]
      exact ⟨t, by rw [List.getElem?_dropLast, if_pos (by omega)]; exact ht⟩)
    exact not_checkEnd_false hnd htol hτ (fun a ha => (hiv a ha).1) hw' hb hgap hbest
  have hheap : rs[t].heap = s'.1 := Rounds.last h.ran.rounds (by rw [List.getLast?_eq_getElem?, ← hlast, Nat.add_sub_cancel, ht])
  have hlow := best_lowest (fun a ha => (hiv a ha).1) hw' hb (by linarith)
  refine ⟨by omega, ?_, ?_⟩
  · rcases h.exit with ⟨-, h1⟩ | ⟨-, h1⟩ <;> rw [← hheap] at h1
    · exact lowestVarArms_unique hnd (fun a ha => (hiv a ha).1.var) hb.1 hlow h1
    · exact checkEnd_unique hnd (fun a ha => (hiv a ha).1.var) hb.1 hlow h1
  · rw [h.cum, getLast?_range_map _ _ (by omega), ← hlast, Nat.add_sub_cancel]

/-- **C86** LUCB: likewise for every round but the first one (after which the stopping test is not evaluated). -/
theorem C86_lucb (hnd : cfg.arms.Nodup) (hr : lucbRun env ops cfg all fuel (heap, w0) = (.ok (some bd), s'))
    {θ : I → α} {t : Nat} {w τ gap : α} {b : I} (htol : cfg.errorTol = .fin τ) (hτ : 0 ≤ τ) (ht0 : 1 ≤ t)
    (hc : ∀ a ∈ cfg.arms, bd.Covers θ t a) (hw : ∀ a ∈ cfg.arms, bd.Narrow w t a) (hb : BestBy cfg.arms θ gap b)
    (hgap : 2 * w + τ < gap) : bd.cum.length = t + 1 ∧ bd.best = [b] := by
  obtain ⟨r0, rs, L, h⟩ := lucb_master hnd hr
  have hlen : bd.cum.length = rs.length + 1 := by rw [h.cum]; simp
  have hlt : t < (r0 :: rs).length := by
    obtain ⟨l, u, v, h1, -⟩ := hc b hb.1
    rw [← (h.ran.lengths hb.1).1]
    exact (List.getElem?_eq_some_iff.mp h1).1
  have hlt' : t - 1 < rs.length := by simp at hlt; omega
  have ht' : rs[t - 1]? = some rs[t - 1] := List.getElem?_eq_getElem hlt'
  have ht : (r0 :: rs)[t]? = some rs[t - 1] := by
    obtain ⟨k, rfl⟩ : ∃ k, t = k + 1 := ⟨t - 1, by omega⟩
    simp
  obtain ⟨l, u, v, hiv⟩ := h.ran.ivs ht cfg.arms (fun _ => id) hc
  have hw' : ∀ a ∈ cfg.arms, u a ≤ l a + w := fun a ha => (narrow_iff (hiv a ha).2.1 (hiv a ha).2.2.1).mp (hw a ha)
  have hlast : t = rs.length := by
    by_contra hne
    obtain ⟨best, hbest⟩ := h.going rs[t - 1] (by
      rw [List.mem_iff_getElem?]
      exact ⟨t - 1, by rw [List.getElem?_dropLast, if_pos (by omega)]; exact ht'⟩)
    exact not_checkEnd_false hnd htol hτ (fun a ha => (hiv a ha).1) hw' hb hgap hbest
  have hheap : rs[t - 1].heap = s'.1 := Rounds.last h.ran.rounds (by
    rw [List.getLast?_eq_getElem?, List.length_cons, Nat.add_sub_cancel, ← hlast, ht])
  have hlow := best_lowest (fun a ha => (hiv a ha).1) hw' hb (by linarith)
  refine ⟨by omega, ?_⟩
  rcases h.exit with ⟨-, h1⟩ | ⟨-, h1⟩ <;> rw [← hheap] at h1
  · exact lowestVarArms_unique hnd (fun a ha => (hiv a ha).1.var) hb.1 hlow h1
  · exact checkEnd_unique hnd (fun a ha => (hiv a ha).1.var) hb.1 hlow h1

theorem se_after {rs : List (RoundRec I S β α)} (h : SeChain ops cfg rs) {t : Nat} {a : I}
    (hne : ∀ r, rs[t]? = some r → a ∉ r.arms) (k : Nat) (r : RoundRec I S β α) (hr : rs[t + k]? = some r) : a ∉ r.arms := by
  induction k generalizing r with
  | zero => exact hne r hr
  | succ k ih =>
    have hlt : t + k < rs.length := by
      have := (List.getElem?_eq_some_iff.mp hr).1
      omega
    have hr' : rs[t + k]? = some rs[t + k] := List.getElem?_eq_getElem hlt
    obtain ⟨_, m, _, _, h3⟩ := h.link (t + k) _ r hr' hr
    rw [h3]
    intro hm
    exact ih _ hr' (List.mem_filter.mp hm).1

theorem sampled_iff {heap' : I → S} {rs : List (RoundRec I S β α)} (hr : Ran ops cfg heap rs bd heap') (hu : 0 < cfg.unitsPerRound)
    {a : I} (ha : a ∈ cfg.arms) {t : Nat} {r : RoundRec I S β α} (ht : rs[t]? = some r) :
    (bd.samples a)[t]? = some cfg.unitsPerRound ↔ a ∈ r.arms := by
  rw [(hr.entry ha ht).2.2.2]
  by_cases hm : a ∈ r.arms
  · simp [hm]
  · simp [hm]; omega

theorem sum_zero_after (u t : Nat) (xs : List Nat) (h1 : ∀ x ∈ xs, x ≤ u) (h2 : ∀ i x : Nat, t < i → xs[i]? = some x → x = 0) :
    xs.sum ≤ (t + 1) * u := by
  have hsplit : xs.sum = (xs.take (t + 1)).sum + (xs.drop (t + 1)).sum := by
    rw [← List.sum_append, List.take_append_drop]
  have hz : (xs.drop (t + 1)).sum = 0 := by
    rw [List.sum_eq_zero_iff]
    intro x hx
    obtain ⟨i, hi⟩ := List.mem_iff_getElem?.mp hx
    rw [List.getElem?_drop] at hi
    exact h2 _ x (by omega) hi
  have hle : (xs.take (t + 1)).sum ≤ (xs.take (t + 1)).length * u := by
    have := List.sum_le_card_nsmul (xs.take (t + 1)) u fun x hx => h1 x (List.mem_of_mem_take hx)
    simpa using this
  rw [hsplit, hz, Nat.add_zero]
  refine hle.trans (Nat.mul_le_mul_right _ ?_)
  rw [List.length_take]; omega

/-- **C86** Successive elimination: let arm `b` be sampled in round `t`, and let the intervals recorded in this round for
the arms sampled in it contain the estimates and the true values and be no longer than `w`.  Then an arm that is worse
than `b` by `3 w` is not sampled after round `t`, and so receives at most `t + 1` batches in the whole run. -/
theorem C86_successive_elimination (hnd : cfg.arms.Nodup) (hr : seRun env ops cfg all fuel (heap, w0) = (.ok (some bd), s'))
    (hu : 0 < cfg.unitsPerRound) {θ : I → α} {t : Nat} {w : α} {b : I} (hb : b ∈ cfg.arms)
    (hbs : (bd.samples b)[t]? = some cfg.unitsPerRound)
    (hc : ∀ a ∈ cfg.arms, (bd.samples a)[t]? = some cfg.unitsPerRound → bd.Covers θ t a ∧ bd.Narrow w t a)
    (a : I) (ha : a ∈ cfg.arms) (hgap : θ b + 3 * w ≤ θ a) :
    (∀ t' x : Nat, t < t' → (bd.samples a)[t']? = some x → x = 0) ∧ (bd.samples a).sum ≤ (t + 1) * cfg.unitsPerRound := by
  obtain ⟨rs, h⟩ := se_master hnd hr
  have hlt : t < rs.length := by
    rw [← (h.ran.lengths hb).2.2.2]
    exact (List.getElem?_eq_some_iff.mp hbs).1
  have ht : rs[t]? = some rs[t] := List.getElem?_eq_getElem hlt
  have hsub := (h.chain.sublist t _ ht).subset
  have hbr := (sampled_iff h.ran hu hb ht).mp hbs
  obtain ⟨l, u, v, hiv⟩ := h.ran.ivs ht rs[t].arms (fun _ h => hsub h)
    (fun c hcr => (hc c (hsub hcr) ((sampled_iff h.ran hu (hsub hcr) ht).mpr hcr)).1)
  have hw' : ∀ c ∈ rs[t].arms, u c ≤ l c + w := fun c hcr => (narrow_iff (hiv c hcr).2.1 (hiv c hcr).2.2.1).mp
    (hc c (hsub hcr) ((sampled_iff h.ran hu (hsub hcr) ht).mpr hcr)).2
  have hnext : ∀ r, rs[t + 1]? = some r → a ∉ r.arms := by
    intro r hr1 har
    by_cases hat : a ∈ rs[t].arms
    · exact elim_drops (h.chain.link t _ r ht hr1) (fun c hc => (hiv c hc).1) hw' hbr hat hgap har
    · exact se_after h.chain (t := t) (fun r hr => by rw [ht] at hr; cases hr; exact hat) 1 r hr1 har
  have hzero : ∀ t' x : Nat, t < t' → (bd.samples a)[t']? = some x → x = 0 := by
    intro t' x htt hx
    have hlt' : t' < rs.length := by
      rw [← (h.ran.lengths ha).2.2.2]
      exact (List.getElem?_eq_some_iff.mp hx).1
    have ht' : rs[t']? = some rs[t'] := List.getElem?_eq_getElem hlt'
    have hna : a ∉ rs[t'].arms := se_after h.chain hnext (t' - (t + 1)) _ (by rw [show t + 1 + (t' - (t + 1)) = t' by omega]; exact ht')
    rw [(h.ran.entry ha ht').2.2.2, if_neg hna] at hx
    simpa using hx.symm
  refine ⟨hzero, sum_zero_after _ _ _ ?_ hzero⟩
  intro x hx
  rw [h.ran.faithful.samples a ha, List.mem_map] at hx
  obtain ⟨r, -, rfl⟩ := hx
  split <;> omega

/-- **C86** Successive elimination: if moreover all arms sampled in round `t` but `b` are worse than `b` by `3 w`, then the
run ended with round `t`; it returned `b` unless the interval of `b` is a single point. -/
theorem C86_successive_elimination_ends (hnd : cfg.arms.Nodup) (hr : seRun env ops cfg all fuel (heap, w0) = (.ok (some bd), s'))
    (hu : 0 < cfg.unitsPerRound) {θ : I → α} {t : Nat} {w : α} {b : I} (hb : b ∈ cfg.arms)
    (hbs : (bd.samples b)[t]? = some cfg.unitsPerRound)
    (hc : ∀ a ∈ cfg.arms, (bd.samples a)[t]? = some cfg.unitsPerRound → bd.Covers θ t a ∧ bd.Narrow w t a)
    (hgap : ∀ a ∈ cfg.arms, (bd.samples a)[t]? = some cfg.unitsPerRound → a ≠ b → θ b + 3 * w ≤ θ a) :
    bd.cum.length = t + 1 ∧ (∀ x ∈ bd.best, x = b) ∧ ((bd.lcb b)[t]? ≠ (bd.ucb b)[t]? → bd.best = [b]) := by
  obtain ⟨rs, h⟩ := se_master hnd hr
  have hlen : bd.cum.length = rs.length := by rw [h.cum]; simp
  have hlt : t < rs.length := by
    rw [← (h.ran.lengths hb).2.2.2]
    exact (List.getElem?_eq_some_iff.mp hbs).1
  have ht : rs[t]? = some rs[t] := List.getElem?_eq_getElem hlt
  have hsub := (h.chain.sublist t _ ht).subset
  have hbr := (sampled_iff h.ran hu hb ht).mp hbs
  have hs : ∀ c ∈ rs[t].arms, (bd.samples c)[t]? = some cfg.unitsPerRound := fun c hcr => (sampled_iff h.ran hu (hsub hcr) ht).mpr hcr
  obtain ⟨l, u, v, hiv⟩ := h.ran.ivs ht rs[t].arms (fun _ h => hsub h) (fun c hcr => (hc c (hsub hcr) (hs c hcr)).1)
  have hw' : ∀ c ∈ rs[t].arms, u c ≤ l c + w := fun c hcr => (narrow_iff (hiv c hcr).2.1 (hiv c hcr).2.2.1).mp
    (hc c (hsub hcr) (hs c hcr)).2
  have honly : ∀ next, ElimStep ops rs[t] next → next.Nodup ∧ ∀ x ∈ next, x = b := by
    intro next hn
    refine ⟨?_, ?_⟩
    · obtain ⟨_, _, _, _, rfl⟩ := hn
      exact ((h.chain.sublist t _ ht).nodup hnd).filter _
    · intro x hx
      by_contra hxb
      have hxr : x ∈ rs[t].arms := by
        obtain ⟨_, _, _, _, rfl⟩ := hn
        exact (List.mem_filter.mp hx).1
      exact elim_drops hn (fun c hc => (hiv c hc).1) hw' hbr hxr (hgap x (hsub hxr) (hs x hxr) hxb) hx
  have hone : ∀ next, ElimStep ops rs[t] next → next.length ≤ 1 := by
    intro next hn
    obtain ⟨n1, n2⟩ := honly next hn
    match next, n1, n2 with
    | [], _, _ => simp
    | [_], _, _ => simp
    | x :: y :: _, n1, n2 =>
      have := n2 x (by simp)
      have := n2 y (by simp)
      simp_all
  have hlast : t + 1 = rs.length := by
    by_contra hne
    have hlt1 : t + 1 < rs.length := by omega
    have h1 := hone _ (h.chain.link t _ _ ht (List.getElem?_eq_getElem hlt1))
    have h2 := h.chain.two _ (List.getElem_mem hlt1)
    omega
  have hlastr : rs.getLast? = some rs[t] := by rw [List.getLast?_eq_getElem?, ← hlast, Nat.add_sub_cancel, ht]
  have hstep : ∀ cands, SeCands ops cfg rs cands → ElimStep ops rs[t] cands := by
    rintro cands (⟨h0, -⟩ | ⟨r, h1, h2⟩)
    · rw [h0] at hlt; simp at hlt
    · rw [hlastr] at h1; cases h1; exact h2
  have hbest : ElimStep ops rs[t] bd.best := by
    rcases h.exit with ⟨-, h2⟩ | ⟨⟨cands, h1, h2⟩, -, -⟩
    · exact hstep _ h2
    · have := hone _ (hstep _ h2); omega
  refine ⟨by omega, (honly _ hbest).2, ?_⟩
  intro hne
  have hne' : l b ≠ u b := by
    rw [(hiv b hbr).2.1, (hiv b hbr).2.2.1] at hne
    simpa using hne
  have hlu : l b < u b := lt_of_le_of_ne ((hiv b hbr).1.lv.trans (hiv b hbr).1.vu) hne'
  have hmem : b ∈ bd.best := by
    obtain ⟨lowest, m, h1, h2, h3⟩ := hbest
    rw [h3, List.mem_filter]
    refine ⟨hbr, ?_⟩
    obtain ⟨c, hcm, hcx⟩ := List.mem_map.mp (Fl.pyMin_mem h2)
    rw [List.mem_filter, Fl.eq_iff] at hcm
    have hlow := Fl.pyMin_le h1 (by rw [← hcm.2.1, (hiv c hcm.1).1.var]; simp) _ (List.mem_map_of_mem hbr)
      (by rw [(hiv b hbr).1.var]; simp)
    rw [← hcm.2.1, (hiv c hcm.1).1.var, (hiv b hbr).1.var, fin_le] at hlow
    rw [← hcx, (hiv c hcm.1).1.ucb, (hiv b hbr).1.lcb, fin_lt]
    by_cases hcb : c = b
    · rw [hcb]; exact hlu
    · have g := hgap c (hsub hcm.1) (hs c hcm.1) hcb
      have i1 := (hiv c hcm.1).1
      have i2 := (hiv b hbr).1
      have := hw' c hcm.1
      have := hw' b hbr
      linarith [i1.lt, i1.tu, i1.lv, i1.vu, i2.lt, i2.tu, i2.lv, i2.vu]
  have h1 := hone _ hbest
  match hq : bd.best with
  | [] => rw [hq] at hmem; simp at hmem
  | [x] => rw [hq] at hmem; simp at hmem; rw [hmem]
  | x :: y :: q => rw [hq] at h1; simp at h1

/-- **C86** Successive elimination: an arm with the lowest true value is sampled in every round, provided that all recorded
intervals contain the true values (strictly on the lower side). -/
theorem C86_best_sampled (hnd : cfg.arms.Nodup) (hr : seRun env ops cfg all fuel (heap, w0) = (.ok (some bd), s'))
    {θ : I → α} (hθ : ∀ a ∈ cfg.arms, (∀ l ∈ bd.lcb a, l.lt (.fin (θ a)) = true) ∧ (∀ u ∈ bd.ucb a, Fl.Above (θ a) u))
    {b : I} (hb : b ∈ cfg.arms) (hmin : ∀ a ∈ cfg.arms, θ b ≤ θ a) {t : Nat} (ht : t < bd.cum.length) :
    (bd.samples b)[t]? = some cfg.unitsPerRound := by
  obtain ⟨rs, h⟩ := se_master hnd hr
  have hlen : bd.cum.length = rs.length := by rw [h.cum]; simp
  have ht' : rs[t]? = some rs[t] := List.getElem?_eq_getElem (by omega)
  have hθ' : ∀ r ∈ rs, ∀ a ∈ cfg.arms, (lcbV ops r.heap a).lt (.fin (θ a)) = true ∧ (Fl.fin (θ a)).le (ucbV ops r.heap a) = true := by
    intro r hr a ha
    obtain ⟨t, e1, e2⟩ := h.ran.entries ha hr
    exact ⟨(hθ a ha).1 _ (List.mem_of_getElem? e1), (hθ a ha).2 _ (List.mem_of_getElem? e2)⟩
  rw [(h.ran.entry hb ht').2.2.2, if_pos (chain_keeps h.chain θ hθ' b hb hmin t _ ht')]

/-- Scripts: wide intervals after the first update, intervals of length 1 after the second. -/
def narrowHeap : Nat → List (Fl ℚ × Fl ℚ × Fl ℚ) × Nat
  | 0 => ([ln 0 10 1, ln 0 10 1, ln (1 / 2) (3 / 2) 1], 0)
  | 1 => ([ln 0 10 5, ln (1 / 10) 11 5, ln (9 / 2) (11 / 2) 5], 0)
  | _ => ([ln 0 10 9, ln (2 / 10) 12 9, ln (17 / 2) (19 / 2) 9], 0)

/-- The true values of the scripted arms. -/
def narrowTruth (a : Nat) : ℚ := [(1 : ℚ), 5, 9].getD a 0

/-- `Covers` and `Narrow`, as a test. -/
def coversB (bd : BanditData Nat ℚ) (θ : Nat → ℚ) (t a : Nat) : Bool :=
  match (bd.lcb a)[t]?, (bd.ucb a)[t]?, (bd.var a)[t]? with
  | some (.fin l), some (.fin u), some (.fin v) => decide (l ≤ θ a) && decide (θ a ≤ u) && decide (l ≤ v) && decide (v ≤ u)
  | _, _, _ => false
def narrowB (bd : BanditData Nat ℚ) (w : ℚ) (t a : Nat) : Bool :=
  match (bd.lcb a)[t]?, (bd.ucb a)[t]? with
  | some (.fin l), some (.fin u) => decide (u ≤ l + w)
  | _, _ => false

theorem covers_of {bd : BanditData Nat ℚ} {θ : Nat → ℚ} {t a : Nat} (h : coversB bd θ t a = true) : bd.Covers θ t a := by
  unfold coversB at h
  split at h
  · rename_i l u v h1 h2 h3
    simp only [Bool.and_eq_true, decide_eq_true_eq] at h
    exact ⟨l, u, v, h1, h2, h3, h.1.1.1, h.1.1.2, h.1.2, h.2⟩
  · simp at h

theorem narrow_of {bd : BanditData Nat ℚ} {w : ℚ} {t a : Nat} (h : narrowB bd w t a = true) : bd.Narrow w t a := by
  unfold narrowB at h
  split at h
  · rename_i l u h1 h2
    exact ⟨l, u, h1, h2, by simpa using h⟩
  · simp at h

/-- non-vacuity: the best scripted arm is better than the others by 4 > 2 · 1 + 0 -/
example : BestBy (demoBandit 100).arms narrowTruth 4 0 ∧ (demoBandit 100).errorTol = .fin 0 ∧ (2 : ℚ) * 1 + 0 < 4 := by
  refine ⟨⟨by simp [demoBandit], ?_⟩, rfl, by norm_num⟩
  intro a ha hab
  simp only [demoBandit, List.mem_cons, List.not_mem_nil, or_false] at ha
  rcases ha with rfl | rfl | rfl <;> simp [narrowTruth] at hab ⊢ <;> norm_num

/-- non-vacuity: Uniform and elimination end after round 1, LUCB after round 2 -/
example : (∃ bd s', uniformRun demoEnv scriptOps (demoBandit 100) none 10 (narrowHeap, 0) = (.ok (some bd), s') ∧
      ((demoBandit 100).arms.all (fun a => coversB bd narrowTruth 1 a && narrowB bd 1 1 a) && decide (bd.cum = [6, 12])) = true) ∧
    (∃ bd s', lucbRun demoEnv scriptOps (demoBandit 100) none 10 (narrowHeap, 0) = (.ok (some bd), s') ∧
      ((demoBandit 100).arms.all (fun a => coversB bd narrowTruth 2 a && narrowB bd 1 2 a) && decide (bd.cum = [6, 10, 14])) = true) ∧
    (∃ bd s', seRun demoEnv scriptOps (demoBandit 100) none 10 (narrowHeap, 0) = (.ok (some bd), s') ∧
      ((demoBandit 100).arms.all (fun a => coversB bd narrowTruth 1 a && narrowB bd 1 1 a && decide ((bd.samples a)[1]? = some 2)) &&
        decide (bd.cum = [6, 12]) && decide ((bd.lcb 0)[1]? ≠ (bd.ucb 0)[1]?)) = true) :=
  ⟨returned _ (by decide +kernel), returned _ (by decide +kernel), returned _ (by decide +kernel)⟩

example : ∃ bd s', seRun demoEnv scriptOps (demoBandit 100) none 10 (demoHeap, 0) = (.ok (some bd), s') ∧
    ([0, 1, 2].all (fun a => ((bd.lcb a).all fun l => l.lt (.fin ([(1 : ℚ), 5, 9].getD a 0))) &&
      ((bd.ucb a).all fun u => (Fl.fin ([(1 : ℚ), 5, 9].getD a 0)).le u)) && decide (2 < bd.cum.length)) = true :=
  returned _ (by decide +kernel)

/-! ## C87 -/

/-- **C87** LUCB makes progress: in a round that follows an unsuccessful stopping test, at least one of the arms pulled had
an interval longer than `w`, if the gap between the best arm and all others exceeds `2 w + error_tol`. -/
theorem C87_progress (hnd : cfg.arms.Nodup) (hr : lucbRun env ops cfg all fuel (heap, w0) = (.ok (some bd), s'))
    {θ : I → α} {t : Nat} {w τ gap : α} {b : I} (htol : cfg.errorTol = .fin τ) (hτ : 0 ≤ τ) (ht0 : 1 ≤ t) (ht1 : t + 1 < bd.cum.length)
    (hc : ∀ a ∈ cfg.arms, bd.Covers θ t a) (hn : bd.NoTies cfg.arms t) (hb : BestBy cfg.arms θ gap b) (hgap : 2 * w + τ < gap) :
    ∃ a ∈ cfg.arms, (bd.samples a)[t + 1]? = some cfg.unitsPerRound ∧ ¬ bd.Narrow w t a := by
  obtain ⟨r0, rs, L, h⟩ := lucb_master hnd hr
  have hlen : bd.cum.length = rs.length + 1 := by rw [h.cum]; simp
  obtain ⟨k, rfl⟩ : ∃ k, t = k + 1 := ⟨t - 1, by omega⟩
  have hk : k < rs.length := by omega
  have hk1 : k + 1 < rs.length := by omega
  have ht : (r0 :: rs)[k + 1]? = some rs[k] := by simp [hk]
  have ht' : (r0 :: rs)[k + 1 + 1]? = some rs[k + 1] := by simp [hk1]
  obtain ⟨l, u, v, hiv⟩ := h.ran.ivs ht cfg.arms (fun _ => id) hc
  obtain ⟨best, hbest⟩ := h.going rs[k] (by
    rw [List.mem_iff_getElem?]
    exact ⟨k, by rw [List.getElem?_dropLast, if_pos (by omega)]; exact List.getElem?_eq_getElem hk⟩)
  obtain ⟨w1, s1, hsel⟩ := h.links (k + 1) _ _ ht ht'
  have hinj : ∀ (f : I → α) (g : I → List (Fl α)), (∀ a ∈ cfg.arms, (g a)[k + 1]? = some (.fin (f a))) →
      (∀ a ∈ cfg.arms, ∀ b ∈ cfg.arms, a ≠ b → (g a)[k + 1]? ≠ (g b)[k + 1]?) → ∀ a ∈ cfg.arms, ∀ b ∈ cfg.arms, f a = f b → a = b := by
    intro f g h1 h2 a ha b hb hab
    by_contra hne
    exact h2 a ha b hb hne (by rw [h1 a ha, h1 b hb, hab])
  obtain ⟨a, ha, haa, hwide⟩ := select_wide hnd htol hτ (fun a ha => (hiv a ha).1)
    (hinj l bd.lcb (fun a ha => (hiv a ha).2.1) fun a ha b hb hab => (hn a ha b hb hab).1)
    (hinj u bd.ucb (fun a ha => (hiv a ha).2.2.1) fun a ha b hb hab => (hn a ha b hb hab).2.1)
    (hinj v bd.var (fun a ha => (hiv a ha).2.2.2) fun a ha b hb hab => (hn a ha b hb hab).2.2) hb hgap hbest hsel
  refine ⟨a, haa, ?_, ?_⟩
  · rw [(h.ran.entry haa ht').2.2.2, if_pos ha]
  · rw [narrow_iff (hiv a haa).2.1 (hiv a haa).2.2.1]; exact hwide

/-- the number of the first `t` rounds in which an arm is updated -/
def pullsIn (rs : List (RoundRec I S β α)) (a : I) (t : Nat) : Nat := ((rs.take t).filter fun r => decide (a ∈ r.arms)).length

theorem pullsIn_succ (rs : List (RoundRec I S β α)) (a : I) (t : Nat) (r : RoundRec I S β α) (h : rs[t]? = some r) :
    pullsIn rs a (t + 1) = pullsIn rs a t + if a ∈ r.arms then 1 else 0 := by
  unfold pullsIn
  rw [List.take_add_one, h, Option.toList_some, List.filter_append, List.length_append]
  by_cases ha : a ∈ r.arms <;> simp [ha]

theorem received_eq {heap' : I → S} {rs : List (RoundRec I S β α)} (hr : Ran ops cfg heap rs bd heap') {a : I} (ha : a ∈ cfg.arms) (t : Nat) :
    bd.received a t = pullsIn rs a (t + 1) * cfg.unitsPerRound := by
  unfold BanditData.received pullsIn
  rw [hr.faithful.samples a ha, ← List.map_take]
  induction rs.take (t + 1) with
  | nil => simp
  | cons r l ih =>
    rw [List.map_cons, List.sum_cons, ih, List.filter_cons]
    by_cases hm : a ∈ r.arms
    · simp [hm]; ring
    · simp [hm]

theorem sum_map_lt {l : List I} {f g : I → Nat} (h : ∀ a ∈ l, f a ≤ g a) {b : I} (hb : b ∈ l) (hlt : f b < g b) :
    (l.map f).sum + 1 ≤ (l.map g).sum := by
  induction l with
  | nil => simp at hb
  | cons a l ih =>
    simp only [List.map_cons, List.sum_cons]
    have h1 := h a (by simp)
    have h2 : (l.map f).sum ≤ (l.map g).sum := List.sum_le_sum fun c hc => h c (by simp [hc])
    rcases List.mem_cons.mp hb with rfl | hb
    · omega
    · have := ih (fun c hc => h c (by simp [hc])) hb; omega

/-- **C87** LUCB ends: suppose every arm `a` has an interval no longer than `w` as soon as it has received `N a` batches,
and the gap between the best arm and all others exceeds `2 w + error_tol`.  Then the run has at most
`2 + Σ (N a - 1)` rounds. -/
theorem C87_rounds (hnd : cfg.arms.Nodup) (hr : lucbRun env ops cfg all fuel (heap, w0) = (.ok (some bd), s'))
    (hu : 0 < cfg.unitsPerRound) {θ : I → α} {w τ gap : α} {b : I} (htol : cfg.errorTol = .fin τ) (hτ : 0 ≤ τ)
    (hc : ∀ t : Nat, 1 ≤ t → t + 1 < bd.cum.length → (∀ a ∈ cfg.arms, bd.Covers θ t a) ∧ bd.NoTies cfg.arms t)
    (hb : BestBy cfg.arms θ gap b) (hgap : 2 * w + τ < gap) (N : I → Nat)
    (hN : ∀ a ∈ cfg.arms, ∀ t : Nat, t < bd.cum.length → N a * cfg.unitsPerRound ≤ bd.received a t → bd.Narrow w t a) :
    bd.cum.length ≤ 2 + (cfg.arms.map fun a => N a - 1).sum ∧
    ∀ c, bd.cum.getLast? = some c →
      c ≤ (cfg.arms.length + 2 * (1 + (cfg.arms.map fun a => N a - 1).sum)) * cfg.unitsPerRound := by
  obtain ⟨r0, rs, L, h⟩ := lucb_master hnd hr
  have hlen : bd.cum.length = rs.length + 1 := by rw [h.cum]; simp
  set R := r0 :: rs with hR
  have hRl : R.length = rs.length + 1 := by simp [hR]
  -- the potential
  let Φ : Nat → Nat := fun t => (cfg.arms.map fun a => min (pullsIn R a (t + 1)) (N a)).sum
  have hmono : ∀ t, t + 1 < R.length → ∀ a ∈ cfg.arms, min (pullsIn R a (t + 1)) (N a) ≤ min (pullsIn R a (t + 1 + 1)) (N a) := by
    intro t ht a _
    rw [pullsIn_succ R a (t + 1) _ (List.getElem?_eq_getElem ht)]
    omega
  have hstep : ∀ t, 1 ≤ t → t + 1 < R.length → Φ t + 1 ≤ Φ (t + 1) := by
    intro t ht1 ht2
    obtain ⟨hcov, hnt⟩ := hc t ht1 (by omega)
    obtain ⟨a, ha, hs, hw⟩ := C87_progress hnd hr htol hτ ht1 (by omega) hcov hnt hb hgap
    have hlt : pullsIn R a (t + 1) < N a := by
      by_contra hge
      refine hw (hN a ha t (by omega) ?_)
      rw [received_eq h.ran ha]
      exact Nat.mul_le_mul_right _ (not_lt.mp hge)
    have hm : a ∈ R[t + 1].arms := (sampled_iff h.ran hu ha (List.getElem?_eq_getElem ht2)).mp hs
    refine sum_map_lt (hmono t ht2) ha ?_
    rw [pullsIn_succ R a (t + 1) _ (List.getElem?_eq_getElem ht2), if_pos hm]
    omega
  have hall : ∀ k, k + 1 < R.length → Φ 0 + k ≤ Φ (k + 1) := by
    intro k hk
    induction k with
    | zero =>
      rw [Nat.add_zero]
      exact List.sum_le_sum (hmono 0 hk)
    | succ k ih =>
      have := ih (by omega)
      have := hstep (k + 1) (by omega) hk
      omega
  have h0 : Φ 0 = (cfg.arms.map fun a => min 1 (N a)).sum := by
    change (cfg.arms.map fun a => min (pullsIn R a (0 + 1)) (N a)).sum = _
    congr 1
    apply List.map_congr_left
    intro a ha
    have : pullsIn R a (0 + 1) = 1 := by
      rw [pullsIn_succ R a 0 r0 (by simp [hR]), h.first, if_pos ha]; simp [pullsIn]
    rw [this]
  have hmax : ∀ t, Φ t ≤ (cfg.arms.map N).sum := fun t => List.sum_le_sum fun a _ => by omega
  have hsplit : (cfg.arms.map N).sum = (cfg.arms.map fun a => min 1 (N a)).sum + (cfg.arms.map fun a => N a - 1).sum := by
    rw [← List.sum_map_add]
    congr 1
    apply List.map_congr_left
    intro a _
    omega
  have hbound : rs.length ≤ 1 + (cfg.arms.map fun a => N a - 1).sum := by
    rcases Nat.lt_or_ge rs.length 2 with hsmall | hbig
    · omega
    · have := hall (rs.length - 1) (by omega)
      have := hmax (rs.length - 1 + 1)
      omega
  refine ⟨by omega, ?_⟩
  intro c hcl
  rw [h.cum, getLast?_range_map _ _ (by omega), Option.some.injEq, Nat.add_sub_cancel] at hcl
  rw [← hcl]
  have : rs.length * (2 * cfg.unitsPerRound) ≤ (1 + (cfg.arms.map fun a => N a - 1).sum) * (2 * cfg.unitsPerRound) :=
    Nat.mul_le_mul_right _ hbound
  calc _ ≤ cfg.arms.length * cfg.unitsPerRound + (1 + (cfg.arms.map fun a => N a - 1).sum) * (2 * cfg.unitsPerRound) := by omega
    _ = _ := by ring

/-- non-vacuity: with `N a = 2` the scripted arms meet the hypotheses; the run has 3 rounds, the bound is 5 -/
example : ∃ bd s', lucbRun demoEnv scriptOps (demoBandit 100) none 10 (narrowHeap, 0) = (.ok (some bd), s') ∧
    (decide (bd.cum.length = 3) && (demoBandit 100).arms.all (fun a => coversB bd narrowTruth 1 a) &&
      (demoBandit 100).arms.all (fun a => (demoBandit 100).arms.all fun b => a == b || (decide ((bd.lcb a)[1]? ≠ (bd.lcb b)[1]?) &&
        decide ((bd.ucb a)[1]? ≠ (bd.ucb b)[1]?) && decide ((bd.var a)[1]? ≠ (bd.var b)[1]?))) &&
      (demoBandit 100).arms.all (fun a => [0, 1, 2].all fun t => decide (bd.received a t < 2 * 2) || narrowB bd 1 t a)) = true :=
  returned _ (by decide +kernel)

/-- Scripts: arms 0 and 1 share the lowest estimate, and only arm 1 (the best one) has a wide interval. -/
def stuckHeap : Nat → List (Fl ℚ × Fl ℚ × Fl ℚ) × Nat
  | 0 => ([ln (9 / 10) (11 / 10) 1], 0)
  | 1 => ([ln 0 (105 / 100) 1, ln 0 (105 / 100) 1, ln 0 (1 / 10) 0], 0)
  | _ => ([ln 8 (81 / 10) 8], 0)

/-- Scripts: arm 2 is clearly the worst, but its upper bound is infinite until its second update. -/
def openHeap : Nat → List (Fl ℚ × Fl ℚ × Fl ℚ) × Nat
  | 0 => ([ln (9 / 10) (11 / 10) 1], 0)
  | 1 => ([ln 4 (41 / 10) 4], 0)
  | _ => ([(.fin 8, .pinf, .fin 9), (.fin 8, .pinf, .fin 9), ln 8 10 9], 0)

/-- **C87** Without the hypotheses on ties and on finite bounds LUCB can keep pulling arms whose intervals are
narrow until the sample limit is reached, although one more batch for the remaining arm would end the game: in the first
run the two lowest estimates are equal, in the second run the worst arm has an infinite upper bound.  Uniform ends both
games in round 1. -/
theorem C87_hypotheses_needed :
    (∃ bd s', lucbRun demoEnv scriptOps (demoBandit 40) none 20 (stuckHeap, 0) = (.ok (some bd), s') ∧
      (decide (bd.samples 1 = 2 :: List.replicate 9 0) && decide (bd.cum.getLast? = some 42) && decide (bd.best = [0, 1]) &&
        (List.range 10).all (fun t => narrowB bd (1 / 5) t 0 && narrowB bd (1 / 5) t 2)) = true) ∧
    (∃ bd s', uniformRun demoEnv scriptOps (demoBandit 40) none 20 (stuckHeap, 0) = (.ok (some bd), s') ∧
      (decide (bd.cum = [6, 12]) && decide (bd.best = [1])) = true) ∧
    (∃ bd s', lucbRun demoEnv scriptOps (demoBandit 40) none 20 (openHeap, 0) = (.ok (some bd), s') ∧
      (decide (bd.samples 2 = 2 :: List.replicate 9 0) && decide (bd.cum.getLast? = some 42) &&
        (List.range 10).all (fun t => narrowB bd (1 / 5) t 0 && narrowB bd (1 / 5) t 1)) = true) ∧
    (∃ bd s', uniformRun demoEnv scriptOps (demoBandit 40) none 20 (openHeap, 0) = (.ok (some bd), s') ∧
      (decide (bd.cum = [6, 12]) && decide (bd.best = [0])) = true) :=
  ⟨returned _ (by decide +kernel), returned _ (by decide +kernel), returned _ (by decide +kernel), returned _ (by decide +kernel)⟩

end Bandit
end Verif
