import Verif.Lemmas.Bandits7

/-!
# What the stopping rules guarantee
-/

set_option linter.unusedSectionVars false
set_option linter.unusedSimpArgs false

namespace Verif
namespace Bandit
variable {I S W β α : Type} [Field α] [LinearOrder α] [IsStrictOrderedRing α] [DecidableEq I]
variable {ops : ArmOps S W β α} {cfg : BanditCfg I α} {heap0 heap' : I → S} {rs : List (RoundRec I S β α)} {bd : BanditData I α}

theorem separated_of_checkEnd (hnd : cfg.arms.Nodup) (hr : Ran ops cfg heap0 rs bd heap') (hne : rs ≠ [])
    (hc : checkEnd ops cfg heap' = .ok (true, bd.best))
    (hl : ∀ a ∈ cfg.arms, bd.finalLcb a ≠ some .nan) (hv : ∀ a ∈ cfg.arms, bd.finalVar a ≠ some .nan) :
    ∃ b, bd.best = [b] ∧ bd.Separated cfg.arms cfg.errorTol b := by
  obtain ⟨b, m, h1, h2, h3, h4, h5, h6, h7, h8⟩ := checkEnd_true hnd hc
  refine ⟨b, h2, h1, ?_, ?_, ?_⟩
  · intro a ha
    exact ⟨_, (hr.final hne ha).2.1, h6 a ha⟩
  · intro a ha hab
    refine ⟨_, _, (hr.final hne ha).1, (hr.final hne h1).2.1, ?_⟩
    refine Fl.lt_sub_mono _ _ _ _ h3 (h4 a ha hab ?_)
    intro hn
    exact hl a ha (by rw [(hr.final hne ha).1, hn])
  · intro a ha
    refine ⟨_, _, (hr.final hne h1).2.2, (hr.final hne ha).2.2, h7 ?_ a ha⟩
    intro hn
    exact hv b h1 (by rw [(hr.final hne h1).2.2, hn])

theorem sep_finite {u l t : Fl α} {x y : α} (hs : u.lt (l.sub t) = true) (hi : u.isInf = false) (ht : t.lt (.fin 0) = false)
    (hl : l.le (.fin y) = true) (hu : (Fl.fin x).le u = true) : ∃ t', t = .fin t' ∧ 0 ≤ t' ∧ x + t' < y := by
  cases t <;> cases l <;> cases u <;>
    simp [Fl.lt, Fl.le, Fl.eq, Fl.sub, Fl.add, Fl.neg, Fl.isInf, le_iff_lt_or_eq.symm] at hs hi ht hl hu ⊢
  exact ⟨ht, by linarith⟩

theorem correct_of_checkEnd (hnd : cfg.arms.Nodup) (hr : Ran ops cfg heap0 rs bd heap') (hne : rs ≠ [])
    (hc : checkEnd ops cfg heap' = .ok (true, bd.best)) (htol : cfg.errorTol.lt (.fin 0) = false) (θ : I → α)
    (hθ : ∀ a ∈ cfg.arms, ∃ l u, bd.finalLcb a = some l ∧ bd.finalUcb a = some u ∧ l.Below (θ a) ∧ Fl.Above (θ a) u) :
    ∃ b t, bd.best = [b] ∧ b ∈ cfg.arms ∧ cfg.errorTol = .fin t ∧ 0 ≤ t ∧ ∀ a ∈ cfg.arms, a ≠ b → θ b + t < θ a := by
  obtain ⟨b, m, h1, h2, h3, h4, ⟨c, hc1, hc2, hc3⟩, h6, -, -⟩ := checkEnd_true hnd hc
  have key : ∀ a ∈ cfg.arms, a ≠ b → ∃ t, cfg.errorTol = .fin t ∧ 0 ≤ t ∧ θ b + t < θ a := by
    intro a ha hab
    obtain ⟨l, u, e1, e2, e3, e4⟩ := hθ a ha
    obtain ⟨l', u', f1, f2, f3, f4⟩ := hθ b h1
    rw [(hr.final hne ha).1, Option.some.injEq] at e1
    rw [(hr.final hne h1).2.1, Option.some.injEq] at f2
    have hln : lcbV ops heap' a ≠ .nan := by
      rw [e1]; exact (Fl.ne_nan_of_le _ _ e3).1
    have hs := Fl.lt_sub_mono _ _ _ _ h3 (h4 a ha hab hln)
    have hi := h6 b h1
    rw [f2] at hs hi
    rw [e1] at hs
    exact sep_finite hs hi htol e3 f4
  obtain ⟨t, ht, ht0, -⟩ := key c hc1 hc2
  refine ⟨b, t, h2, h1, ht, ht0, ?_⟩
  intro a ha hab
  obtain ⟨t', ht', -, h⟩ := key a ha hab
  rw [ht, Fl.fin.injEq] at ht'
  rw [ht']; exact h

theorem lowest_of_limit (hr : Ran ops cfg heap0 rs bd heap') (hne : rs ≠ []) (hc : lowestVarArms ops cfg heap' = .ok bd.best) :
    bd.best.Sublist cfg.arms ∧
    (∀ a0, cfg.arms.head? = some a0 → bd.finalVar a0 ≠ some .nan →
      bd.best ≠ [] ∧ ∀ a ∈ cfg.arms, (a ∈ bd.best ↔ bd.Lowest cfg.arms a)) ∧
    (∀ a0, cfg.arms.head? = some a0 → bd.finalVar a0 = some .nan → bd.best = []) := by
  rcases lowestVarArms_ok hc with ⟨h1, h2⟩ | ⟨m, hm, hb⟩
  · rw [h1, h2]; simp
  rw [hb]
  refine ⟨List.filter_sublist, ?_, ?_⟩
  · intro a0 h0 hn
    have ha0 : a0 ∈ cfg.arms := List.mem_of_mem_head? h0
    have hn' : varV ops heap' a0 ≠ .nan := fun h => hn (by rw [(hr.final hne ha0).2.2, h])
    have hmn : m ≠ .nan := by
      intro h
      rcases hA : cfg.arms with _ | ⟨x, l⟩
      · simp [hA] at h0
      · rw [hA] at h0 hm
        simp at h0; subst h0
        exact hn' ((Fl.pyMin_nan_iff hm).mp h)
    have hmem := Fl.pyMin_mem hm
    obtain ⟨c, hc1, hc2⟩ := List.mem_map.mp hmem
    refine ⟨?_, ?_⟩
    · apply List.ne_nil_of_mem (a := c)
      rw [List.mem_filter]
      exact ⟨hc1, by rw [Fl.eq_iff]; exact ⟨hc2, hc2 ▸ hmn⟩⟩
    · intro a ha
      rw [List.mem_filter, Fl.eq_iff]
      constructor
      · rintro ⟨-, h1, h2⟩
        refine ⟨_, (hr.final hne ha).2.2, h2, ?_⟩
        intro b hb v' hv' hvn
        rw [(hr.final hne hb).2.2, Option.some.injEq] at hv'
        rw [h1, ← hv']
        exact Fl.pyMin_le hm hmn _ (List.mem_map_of_mem hb) (hv' ▸ hvn)
      · rintro ⟨v, h1, h2, h3⟩
        rw [(hr.final hne ha).2.2, Option.some.injEq] at h1
        refine ⟨ha, ?_, h1 ▸ h2⟩
        have e1 := h3 c hc1 _ (hr.final hne hc1).2.2 (hc2 ▸ hmn)
        have e2 := Fl.pyMin_le hm hmn _ (List.mem_map_of_mem ha) (h1 ▸ h2)
        rw [h1] at e2 ⊢
        rw [hc2] at e1
        cases v <;> cases m <;> simp_all [Fl.le, Fl.lt, Fl.eq, le_iff_lt_or_eq.symm]
        exact le_antisymm e1 e2
  · intro a0 h0 hn
    have ha0 : a0 ∈ cfg.arms := List.mem_of_mem_head? h0
    have hn' : varV ops heap' a0 = .nan := by
      rw [(hr.final hne ha0).2.2, Option.some.injEq] at hn; exact hn
    have hmn : m = .nan := by
      rcases hA : cfg.arms with _ | ⟨x, l⟩
      · simp [hA] at h0
      · rw [hA] at h0 hm
        simp at h0; subst h0
        exact (Fl.pyMin_nan_iff hm).mpr hn'
    rw [List.filter_eq_nil_iff]
    intro a _
    rw [hmn]
    cases varV ops heap' a <;> simp [Fl.eq]

/-! ## Successive elimination -/

/-- The true minimisers survive when all intervals are valid. -/
theorem elim_keeps {r : RoundRec I S β α} {next : List I} (he : ElimStep ops r next) (θ : I → α)
    (hθ : ∀ a ∈ r.arms, (lcbV ops r.heap a).lt (.fin (θ a)) = true ∧ (Fl.fin (θ a)).le (ucbV ops r.heap a) = true)
    (b : I) (hb : b ∈ r.arms) (hmin : ∀ a ∈ r.arms, θ b ≤ θ a) : b ∈ next := by
  obtain ⟨lowest, m, h1, h2, h3⟩ := he
  rw [h3, List.mem_filter]
  refine ⟨hb, ?_⟩
  obtain ⟨c, hc, rfl⟩ := List.mem_map.mp (Fl.pyMin_mem h2)
  have hc' := (List.mem_filter.mp hc).1
  refine Fl.lt_of_lt_of_le' _ _ _ (hθ b hb).1 (Fl.le_trans' _ _ _ ?_ (hθ c hc').2)
  have := hmin c hc'
  simpa [Fl.le, Fl.lt, Fl.eq, le_iff_lt_or_eq.symm] using this

/-- An elimination step keeps at least one arm when the intervals are not degenerate. -/
theorem elim_nonempty {r : RoundRec I S β α} {next : List I} (he : ElimStep ops r next)
    (hlu : ∀ a ∈ r.arms, (lcbV ops r.heap a).lt (ucbV ops r.heap a) = true) : next ≠ [] := by
  obtain ⟨lowest, m, h1, h2, h3⟩ := he
  obtain ⟨c, hc, rfl⟩ := List.mem_map.mp (Fl.pyMin_mem h2)
  have hc' := (List.mem_filter.mp hc).1
  rw [h3]
  apply List.ne_nil_of_mem (a := c)
  rw [List.mem_filter]
  exact ⟨hc', hlu c hc'⟩

/-- The set of true minimisers survives the whole chain. -/
theorem chain_keeps (hch : SeChain ops cfg rs) (θ : I → α)
    (hθ : ∀ r ∈ rs, ∀ a ∈ cfg.arms, (lcbV ops r.heap a).lt (.fin (θ a)) = true ∧ (Fl.fin (θ a)).le (ucbV ops r.heap a) = true)
    (b : I) (hb : b ∈ cfg.arms) (hmin : ∀ a ∈ cfg.arms, θ b ≤ θ a) (i : Nat) (r : RoundRec I S β α) (hr : rs[i]? = some r) : b ∈ r.arms := by
  induction i generalizing r with
  | zero => rw [hch.first r hr]; exact hb
  | succ i ih =>
    have hi : i < rs.length := by
      have := (List.getElem?_eq_some_iff.mp hr).1
      omega
    have hr' : rs[i]? = some rs[i] := List.getElem?_eq_getElem hi
    have hsub := (hch.sublist i _ hr').subset
    exact elim_keeps (hch.link i _ r hr' hr) θ (fun a ha => hθ _ (List.getElem_mem hi) a (hsub ha)) b (ih _ hr')
      fun a ha => hmin a (hsub ha)

theorem cands_keep (hch : SeChain ops cfg rs) {cands : List I} (hc : SeCands ops cfg rs cands) (θ : I → α)
    (hθ : ∀ r ∈ rs, ∀ a ∈ cfg.arms, (lcbV ops r.heap a).lt (.fin (θ a)) = true ∧ (Fl.fin (θ a)).le (ucbV ops r.heap a) = true)
    (b : I) (hb : b ∈ cfg.arms) (hmin : ∀ a ∈ cfg.arms, θ b ≤ θ a) : b ∈ cands := by
  rcases hc with ⟨_, rfl⟩ | ⟨r, h1, h2⟩
  · exact hb
  · have hm : r ∈ rs := List.mem_of_mem_getLast? h1
    rw [List.getLast?_eq_getElem?] at h1
    have hsub := (hch.sublist _ _ h1).subset
    exact elim_keeps h2 θ (fun a ha => hθ r hm a (hsub ha)) b (chain_keeps hch θ hθ b hb hmin _ r h1) fun a ha => hmin a (hsub ha)

theorem exists_argmin (l : List I) (θ : I → α) (h : l ≠ []) : ∃ b ∈ l, ∀ a ∈ l, θ b ≤ θ a := by
  induction l with
  | nil => exact absurd rfl h
  | cons x l ih =>
    by_cases hl : l = []
    · subst hl; exact ⟨x, by simp, by simp⟩
    · obtain ⟨b, hb, hm⟩ := ih hl
      rcases le_total (θ x) (θ b) with h | h
      · refine ⟨x, by simp, ?_⟩
        intro a ha
        rcases List.mem_cons.mp ha with rfl | ha
        · exact le_refl _
        · exact h.trans (hm a ha)
      · refine ⟨b, by simp [hb], ?_⟩
        intro a ha
        rcases List.mem_cons.mp ha with rfl | ha
        · exact h
        · exact hm a ha

/-- The recorded entries of a run, by round. -/
theorem Ran.entries (hr : Ran ops cfg heap0 rs bd heap') {a : I} (ha : a ∈ cfg.arms) {r : RoundRec I S β α} (hrm : r ∈ rs) :
    ∃ t : Nat, (bd.lcb a)[t]? = some (lcbV ops r.heap a) ∧ (bd.ucb a)[t]? = some (ucbV ops r.heap a) := by
  obtain ⟨t, ht⟩ := List.mem_iff_getElem?.mp hrm
  exact ⟨t, (hr.entry ha ht).1, (hr.entry ha ht).2.1⟩

end Bandit
end Verif
