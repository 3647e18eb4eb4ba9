import Verif.Props.Bandits

/-!
# Properties C35-C41, C45-C47: stopping rules, elimination, selection
-/

set_option linter.unusedSectionVars false
set_option linter.unusedSimpArgs false

namespace Verif
namespace Bandit

variable {I S W β α : Type} [Field α] [LinearOrder α] [IsStrictOrderedRing α] [DecidableEq I]
variable {env : BanditEnv W β} {ops : ArmOps S W β α} {cfg : BanditCfg I α} {all : Option (ExpData β)} {fuel : Nat}
  {heap : I → S} {w : W} {bd : BanditData I α} {s' : (I → S) × W} {L : Fl α}

/-- The run ended with the samples within the limit. -/
def EndsWithin (L : Fl α) (bd : BanditData I α) : Prop := ∀ c, bd.cum.getLast? = some c → L.lt (.fin (c : α)) = false

/-- The run ended with the samples above the limit. -/
def EndsAbove (L : Fl α) (bd : BanditData I α) : Prop := ∃ c, bd.cum.getLast? = some c ∧ L.lt (.fin (c : α)) = true

theorem getLast?_range_map {γ : Type} (f : Nat → γ) (n : Nat) (h : n ≠ 0) : ((List.range n).map f).getLast? = some (f (n - 1)) := by
  rw [List.getLast?_eq_getElem?, List.length_map, List.length_range, List.getElem?_map, List.getElem?_range (by omega)]
  rfl

theorem uniform_within (hnd : cfg.arms.Nodup) (hr : uniformRun env ops cfg all fuel (heap, w) = (.ok (some bd), s'))
    (hL : cfg.sampleLimit = some L) (hin : EndsWithin L bd) :
    ∃ rs, Ran ops cfg heap rs bd s'.1 ∧ rs ≠ [] ∧ checkEnd ops cfg s'.1 = .ok (true, bd.best) := by
  obtain ⟨rs, L', h⟩ := uniform_master hnd hr
  have := h.limit
  rw [hL] at this; cases this
  refine ⟨rs, h.ran, h.nonempty, ?_⟩
  rcases h.exit with ⟨h1, -⟩ | ⟨-, h2⟩
  · have hlen : rs.length ≠ 0 := by simpa using h.nonempty
    have := hin _ (by rw [h.cum, getLast?_range_map _ _ hlen])
    rw [Nat.sub_add_cancel (by omega)] at this
    rw [h1] at this
    exact absurd this (by simp)
  · exact h2

theorem lucb_within (hnd : cfg.arms.Nodup) (hr : lucbRun env ops cfg all fuel (heap, w) = (.ok (some bd), s'))
    (hL : cfg.sampleLimit = some L) (hin : EndsWithin L bd) :
    ∃ rs, Ran ops cfg heap rs bd s'.1 ∧ rs ≠ [] ∧ checkEnd ops cfg s'.1 = .ok (true, bd.best) := by
  obtain ⟨r0, rs, L', h⟩ := lucb_master hnd hr
  have := h.limit
  rw [hL] at this; cases this
  refine ⟨_, h.ran, by simp, ?_⟩
  rcases h.exit with ⟨h1, -⟩ | ⟨-, h2⟩
  · have := hin _ (by rw [h.cum, getLast?_range_map _ _ (by omega)])
    rw [Nat.add_sub_cancel] at this
    rw [h1] at this
    exact absurd this (by simp)
  · exact h2

/-! ## C35 -/

/-- **C35 (partial)** Uniform: a run that stops within the limit returns a single arm, separated from all others by the
last recorded entries.  Missing: runs whose last recorded lower bounds or estimates contain a NaN. -/
theorem C35_uniform_partial (hnd : cfg.arms.Nodup) (hr : uniformRun env ops cfg all fuel (heap, w) = (.ok (some bd), s'))
    (hL : cfg.sampleLimit = some L) (hin : EndsWithin L bd)
    (hl : ∀ a ∈ cfg.arms, bd.finalLcb a ≠ some .nan) (hv : ∀ a ∈ cfg.arms, bd.finalVar a ≠ some .nan) :
    ∃ b, bd.best = [b] ∧ bd.Separated cfg.arms cfg.errorTol b := by
  obtain ⟨rs, h1, h2, h3⟩ := uniform_within hnd hr hL hin
  exact separated_of_checkEnd hnd h1 h2 h3 hl hv

/-- **C35 (partial)** LUCB: likewise.  Missing: as for Uniform. -/
theorem C35_lucb_partial (hnd : cfg.arms.Nodup) (hr : lucbRun env ops cfg all fuel (heap, w) = (.ok (some bd), s'))
    (hL : cfg.sampleLimit = some L) (hin : EndsWithin L bd)
    (hl : ∀ a ∈ cfg.arms, bd.finalLcb a ≠ some .nan) (hv : ∀ a ∈ cfg.arms, bd.finalVar a ≠ some .nan) :
    ∃ b, bd.best = [b] ∧ bd.Separated cfg.arms cfg.errorTol b := by
  obtain ⟨rs, h1, h2, h3⟩ := lucb_within hnd hr hL hin
  exact separated_of_checkEnd hnd h1 h2 h3 hl hv

/-- non-vacuity: the runs of the running example end within the limit without NaN -/
example : (∃ bd s', uniformRun demoEnv scriptOps (demoBandit 100) none 10 (demoHeap, 0) = (.ok (some bd), s') ∧
      (bd.cum.getLast? = some 18 ∧ [0, 1, 2].map bd.finalLcb = [some (.fin 0), some (.fin 4), some (.fin 7)] ∧
        [0, 1, 2].map bd.finalUcb = [some (.fin 2), some (.fin 8), some (.fin 11)] ∧
        [0, 1, 2].map bd.finalVar = [some (.fin 1), some (.fin 5), some (.fin 9)] : Bool) = true) ∧
    (∃ bd s', lucbRun demoEnv scriptOps (demoBandit 100) none 10 (demoHeap, 0) = (.ok (some bd), s') ∧
      (bd.cum.getLast? = some 14 ∧ [0, 1, 2].map bd.finalLcb = [some (.fin 0), some (.fin 4), some (.fin 3)] ∧
        [0, 1, 2].map bd.finalVar = [some (.fin 1), some (.fin 5), some (.fin 9)] : Bool) = true) :=
  ⟨returned _ (by decide +kernel), returned _ (by decide +kernel)⟩

/-- Scripts with a NaN lower bound (arm 2). -/
def nanLcbHeap : Nat → List (Fl ℚ × Fl ℚ × Fl ℚ) × Nat
  | 0 => ([ln 0 1 1], 0)
  | 1 => ([ln 5 6 5], 0)
  | _ => ([(.nan, .fin 6, .fin 7)], 0)

/-- Scripts with a NaN estimate (arm 2). -/
def nanVarHeap : Nat → List (Fl ℚ × Fl ℚ × Fl ℚ) × Nat
  | 0 => ([ln 5 6 5], 0)
  | 1 => ([ln 5 6 5], 0)
  | _ => ([(.fin 0, .fin 1, .nan)], 0)

/-- **C35 (violated)** With NaN entries early stopping does not imply separation: Uniform declares arm 0 best although
arm 2 has the lower bound NaN, and it declares an arm with estimate NaN best. -/
theorem C35_nan_violated :
    (∃ bd s', uniformRun demoEnv scriptOps (demoBandit 100) none 10 (nanLcbHeap, 0) = (.ok (some bd), s') ∧
      (bd.cum = [6] ∧ bd.best = [0] ∧ bd.finalUcb 0 = some (.fin 1) ∧ bd.finalLcb 2 = some .nan : Bool) = true) ∧
    (∃ bd s', uniformRun demoEnv scriptOps (demoBandit 100) none 10 (nanVarHeap, 0) = (.ok (some bd), s') ∧
      (bd.cum = [6] ∧ bd.best = [2] ∧ bd.finalVar 2 = some .nan : Bool) = true) :=
  ⟨returned _ (by decide +kernel), returned _ (by decide +kernel)⟩

/-! ## C36 -/

/-- **C36** Uniform: if the last recorded intervals contain the true values, a run that stops within the limit returns the
unique minimiser, and every other arm is worse by more than `error_tol`. -/
theorem C36_uniform (hnd : cfg.arms.Nodup) (hr : uniformRun env ops cfg all fuel (heap, w) = (.ok (some bd), s'))
    (hL : cfg.sampleLimit = some L) (hin : EndsWithin L bd) (htol : cfg.errorTol.lt (.fin 0) = false) (θ : I → α)
    (hθ : ∀ a ∈ cfg.arms, ∃ l u, bd.finalLcb a = some l ∧ bd.finalUcb a = some u ∧ l.Below (θ a) ∧ Fl.Above (θ a) u) :
    ∃ b t, bd.best = [b] ∧ b ∈ cfg.arms ∧ cfg.errorTol = .fin t ∧ 0 ≤ t ∧ ∀ a ∈ cfg.arms, a ≠ b → θ b + t < θ a := by
  obtain ⟨rs, h1, h2, h3⟩ := uniform_within hnd hr hL hin
  exact correct_of_checkEnd hnd h1 h2 h3 htol θ hθ

/-- **C36** LUCB: likewise. -/
theorem C36_lucb (hnd : cfg.arms.Nodup) (hr : lucbRun env ops cfg all fuel (heap, w) = (.ok (some bd), s'))
    (hL : cfg.sampleLimit = some L) (hin : EndsWithin L bd) (htol : cfg.errorTol.lt (.fin 0) = false) (θ : I → α)
    (hθ : ∀ a ∈ cfg.arms, ∃ l u, bd.finalLcb a = some l ∧ bd.finalUcb a = some u ∧ l.Below (θ a) ∧ Fl.Above (θ a) u) :
    ∃ b t, bd.best = [b] ∧ b ∈ cfg.arms ∧ cfg.errorTol = .fin t ∧ 0 ≤ t ∧ ∀ a ∈ cfg.arms, a ≠ b → θ b + t < θ a := by
  obtain ⟨rs, h1, h2, h3⟩ := lucb_within hnd hr hL hin
  exact correct_of_checkEnd hnd h1 h2 h3 htol θ hθ

/-- non-vacuity: in the running example the true values 1, 5, 9 lie in all last recorded intervals -/
example : ∃ bd s', uniformRun demoEnv scriptOps (demoBandit 100) none 10 (demoHeap, 0) = (.ok (some bd), s') ∧
    ([0, 1, 2].all fun a => ((bd.finalLcb a).any fun l => l.le (.fin ([(1 : ℚ), 5, 9].getD a 0))) &&
      ((bd.finalUcb a).any fun u => (Fl.fin ([(1 : ℚ), 5, 9].getD a 0)).le u)) = true :=
  returned _ (by decide +kernel)

/-- **C36** Successive elimination: if all recorded intervals contain the true values (strictly on the lower side), a run
that stops within the limit returns the unique minimiser. -/
theorem C36_successive_elimination (hnd : cfg.arms.Nodup) (hne : cfg.arms ≠ [])
    (hr : seRun env ops cfg all fuel (heap, w) = (.ok (some bd), s'))
    (hL : cfg.sampleLimit = some L) (hL0 : L.lt (.fin 0) = false) (hin : EndsWithin L bd) (θ : I → α)
    (hθ : ∀ a ∈ cfg.arms, (∀ l ∈ bd.lcb a, l.lt (.fin (θ a)) = true) ∧ (∀ u ∈ bd.ucb a, Fl.Above (θ a) u)) :
    ∃ b, bd.best = [b] ∧ b ∈ cfg.arms ∧ ∀ a ∈ cfg.arms, a ≠ b → θ b < θ a := by
  obtain ⟨rs, h⟩ := se_master hnd hr
  have hθ' : ∀ r ∈ rs, ∀ a ∈ cfg.arms, (lcbV ops r.heap a).lt (.fin (θ a)) = true ∧ (Fl.fin (θ a)).le (ucbV ops r.heap a) = true := by
    intro r hr a ha
    obtain ⟨t, e1, e2⟩ := h.ran.entries ha hr
    exact ⟨(hθ a ha).1 _ (List.mem_of_getElem? e1), (hθ a ha).2 _ (List.mem_of_getElem? e2)⟩
  have hbranch : bd.best.length ≤ 1 ∧ SeCands ops cfg rs bd.best := by
    rcases h.exit with h1 | ⟨-, ⟨L', h1, h2⟩, -⟩
    · exact h1
    · rw [hL] at h1; cases h1
      by_cases hrs : rs = []
      · subst hrs
        simp [samplesAfter] at h2
        rw [hL0] at h2; simp at h2
      · have hlen : rs.length ≠ 0 := by simpa using hrs
        have := hin _ (by rw [h.cum, getLast?_range_map _ _ hlen])
        rw [Nat.sub_add_cancel (by omega), h2] at this
        simp at this
  obtain ⟨hlen, hc⟩ := hbranch
  obtain ⟨b, hb, hmin⟩ := exists_argmin cfg.arms θ hne
  have hbb := cands_keep h.chain hc θ hθ' b hb hmin
  have hbest : bd.best = [b] := by
    rcases hq : bd.best with _ | ⟨x, _ | ⟨y, l⟩⟩
    · rw [hq] at hbb; simp at hbb
    · rw [hq] at hbb; simp at hbb; rw [hbb]
    · rw [hq] at hlen; simp at hlen
  refine ⟨b, hbest, hb, ?_⟩
  intro a ha hab
  rcases (hmin a ha).lt_or_eq with h1 | h1
  · exact h1
  · have := cands_keep h.chain hc θ hθ' a ha (fun c hc => h1 ▸ hmin c hc)
    rw [hbest] at this
    simp at this
    exact absurd this hab

example : ∃ bd s', seRun demoEnv scriptOps (demoBandit 100) none 10 (demoHeap, 0) = (.ok (some bd), s') ∧
    ([0, 1, 2].all fun a => ((bd.lcb a).all fun l => l.lt (.fin ([(1 : ℚ), 5, 9].getD a 0))) &&
      ((bd.ucb a).all fun u => (Fl.fin ([(1 : ℚ), 5, 9].getD a 0)).le u)) = true :=
  returned _ (by decide +kernel)

/-! ## C37 -/

/-- **C37 (violated)** A larger `error_tol` makes the stopping test harder: for all bounds, whenever the test passes with a
tolerance it passes with every smaller one, and there are bounds where only the smaller tolerance passes.  So `error_tol`
is an extra margin, not an allowed suboptimality. -/
theorem C37_tol_violated :
    (∀ (arms : List I) (t t' : α) (ls us vs : List (Fl α)) (best : List I), t ≤ t' →
      endCondition arms (.fin t') ls us vs = .ok (true, best) → endCondition arms (.fin t) ls us vs = .ok (true, best)) ∧
    (endCondition [0, 1] (.fin (1 : ℚ)) [.fin 0, .fin 3] [.fin 1, .fin 4] [.fin 1, .fin 4] = .ok (true, [0]) ∧
     endCondition [0, 1] (.fin (2 : ℚ)) [.fin 0, .fin 3] [.fin 1, .fin 4] [.fin 1, .fin 4] = .ok (false, [0])) := by
  refine ⟨?_, by decide +kernel⟩
  intro arms t t' ls us vs best ht h
  obtain ⟨i, b, u, m, h1, h2, h3, h4, h5, h6, h7, v, h8, h9⟩ := endCondition_ok h
  have h10 : u.lt (m.sub (.fin t)) = true := by
    cases u <;> cases m <;> simp [Fl.lt, Fl.sub, Fl.add, Fl.neg] at h6 ⊢
    linarith
  have h11 : v.isNan = false := by cases v <;> simp_all [Fl.isNan]
  simp [endCondition, h7, h8, h11, h1, h5, at?, h4, h2, h3, h10, bind, Except.bind]

/-- **C37 (violated)** Overlapping intervals never end the game, however large the tolerance: if the returned arm's upper
bound reaches another arm's lower bound, the test has failed. -/
theorem C37_overlap_violated (hnd : cfg.arms.Nodup) (htol : cfg.errorTol.lt (.fin 0) = false) (best : List I) (b a : I) (ha : a ∈ cfg.arms)
    (hab : a ≠ b) (hov : (lcbV ops heap a).le (ucbV ops heap b) = true) : checkEnd ops cfg heap ≠ .ok (true, b :: best) := by
  intro h
  obtain ⟨b', m, h1, h2, h3, h4, -, -, -, -⟩ := checkEnd_true hnd h
  rw [List.cons.injEq] at h2
  obtain ⟨rfl, -⟩ := h2
  have h5 := Fl.lt_sub_mono _ _ _ _ h3 (h4 a ha hab (Fl.ne_nan_of_le _ _ hov).1)
  generalize lcbV ops heap a = l at hov h5
  generalize ucbV ops heap b = u at hov h5
  generalize cfg.errorTol = t at htol h5
  cases t <;> cases l <;> cases u <;> simp [Fl.lt, Fl.le, Fl.eq, Fl.sub, Fl.add, Fl.neg, le_iff_lt_or_eq.symm] at h5 hov htol
  linarith

/-- **C37 (violated)** Successive elimination ignores `error_tol` altogether. -/
theorem C37_se_ignores_tol_violated (env : BanditEnv W β) (ops : ArmOps S W β α) (cfg : BanditCfg I α) (all : Option (ExpData β)) (fuel : Nat)
    (t : Fl α) : seRun env ops { cfg with errorTol := t } all fuel = seRun env ops cfg all fuel := rfl

/-! ## C38 -/

/-- **C38** In successive elimination every arm gets `units` or nothing in a round, and an arm sampled in a round was
sampled in all earlier rounds. -/
theorem C38_eliminated_stay_eliminated (hnd : cfg.arms.Nodup) (hr : seRun env ops cfg all fuel (heap, w) = (.ok (some bd), s'))
    (a : I) (ha : a ∈ cfg.arms) :
    (∀ x ∈ bd.samples a, x = 0 ∨ x = cfg.unitsPerRound) ∧
    ∀ t t' : Nat, t ≤ t' → 0 < cfg.unitsPerRound → (bd.samples a)[t']? = some cfg.unitsPerRound →
      (bd.samples a)[t]? = some cfg.unitsPerRound := by
  obtain ⟨rs, h⟩ := se_master hnd hr
  have hsamp := h.ran.faithful.samples a ha
  refine ⟨?_, ?_⟩
  · intro x hx
    rw [hsamp, List.mem_map] at hx
    obtain ⟨r, -, rfl⟩ := hx
    by_cases hm : a ∈ r.arms <;> simp [hm]
  · have step : ∀ t : Nat, 0 < cfg.unitsPerRound → (bd.samples a)[t + 1]? = some cfg.unitsPerRound →
        (bd.samples a)[t]? = some cfg.unitsPerRound := by
      intro t hu ht
      rw [hsamp, List.getElem?_map] at ht ⊢
      rcases hr1 : rs[t + 1]? with _ | r'
      · simp [hr1] at ht
      have hlt : t < rs.length := by
        have := (List.getElem?_eq_some_iff.mp hr1).1
        omega
      have hr0 : rs[t]? = some rs[t] := List.getElem?_eq_getElem hlt
      have hm : a ∈ r'.arms := by
        by_contra hn
        simp [hr1, hn] at ht
        omega
      obtain ⟨_, m, _, _, h3⟩ := h.chain.link t _ _ hr0 hr1
      rw [h3, List.mem_filter] at hm
      simp [hlt, hm.1]
    intro t t' hle hu
    induction hle with
    | refl => exact id
    | step _ ih => exact fun h => ih (step _ hu h)

example : ∃ bd s', seRun demoEnv scriptOps (demoBandit 100) none 10 (demoHeap, 0) = (.ok (some bd), s') ∧
    (bd.samples 0 = [2, 2, 2] ∧ bd.samples 2 = [2, 2, 0] : Bool) = true :=
  returned _ (by decide +kernel)

/-! ## C39 -/

/-- **C39 (partial)** Successive elimination returns at least one arm when every recorded interval is non-degenerate
(lower bound strictly below the upper one), the last estimate of the first arm is not NaN and the limit is not negative.
Missing: degenerate intervals, see the violation. -/
theorem C39_nonempty_partial (hnd : cfg.arms.Nodup) (hne : cfg.arms ≠ [])
    (hr : seRun env ops cfg all fuel (heap, w) = (.ok (some bd), s'))
    (hL : cfg.sampleLimit = some L) (hL0 : L.lt (.fin 0) = false)
    (hlu : ∀ a ∈ cfg.arms, ∀ (t : Nat) (l u : Fl α), (bd.lcb a)[t]? = some l → (bd.ucb a)[t]? = some u → l.lt u = true)
    (hv : ∀ a, cfg.arms.head? = some a → bd.finalVar a ≠ some .nan) : bd.best ≠ [] := by
  obtain ⟨rs, h⟩ := se_master hnd hr
  rcases h.exit with ⟨-, h1⟩ | ⟨-, ⟨L', h1, h2⟩, h3⟩
  · rcases h1 with ⟨-, h2⟩ | ⟨r, h2, h3⟩
    · rw [h2]; exact hne
    · have hrm : r ∈ rs := List.mem_of_mem_getLast? h2
      refine elim_nonempty h3 fun a ha => ?_
      rw [List.getLast?_eq_getElem?] at h2
      have ha' := (h.chain.sublist _ _ h2).subset ha
      exact hlu a ha' _ _ _ (h.ran.entry ha' h2).1 (h.ran.entry ha' h2).2.1
  · rw [hL] at h1; cases h1
    by_cases hrs : rs = []
    · subst hrs
      simp [samplesAfter] at h2
      rw [hL0] at h2; simp at h2
    · obtain ⟨a0, h0⟩ : ∃ a0, cfg.arms.head? = some a0 := by
        rcases hA : cfg.arms with _ | ⟨x, l⟩
        · exact absurd hA hne
        · exact ⟨x, rfl⟩
      exact ((lowest_of_limit h.ran hrs h3).2.1 a0 h0 (hv a0 h0)).1

example : ∃ bd s', seRun demoEnv scriptOps (demoBandit 100) none 10 (demoHeap, 0) = (.ok (some bd), s') ∧
    ([0, 1, 2].all fun a => ((bd.lcb a).zip (bd.ucb a)).all fun p => p.1.lt p.2) = true :=
  returned _ (by decide +kernel)

/-- Two arms with degenerate intervals. -/
def pointHeap : Nat → List (Fl ℚ × Fl ℚ × Fl ℚ) × Nat
  | 0 => ([ln 1 1 1], 0)
  | _ => ([ln 1 1 1], 0)

/-- **C39 (violated)** Two arms whose intervals are the single point 1 (the interval of an arm whose scores are all equal):
both are eliminated and no arm is returned. -/
theorem C39_empty_violated :
    ∃ bd s', seRun demoEnv scriptOps ⟨[0, 1], .fin (1 / 10), .fin 0, none, some (.fin 100), 2⟩ none 10 (pointHeap, 0) = (.ok (some bd), s') ∧
      (bd.best = [] ∧ bd.cum = [4] : Bool) = true :=
  returned _ (by decide +kernel)

/-! ## C40 -/

/-- **C40 (partial)** A run of successive elimination that ends within the limit returns only arms sampled in the last
round.  Missing: runs ended by the limit, see the violation. -/
theorem C40_candidates_partial (hnd : cfg.arms.Nodup) (hr : seRun env ops cfg all fuel (heap, w) = (.ok (some bd), s'))
    (hL : cfg.sampleLimit = some L) (hin : EndsWithin L bd) (hcum : bd.cum ≠ []) (b : I) (hb : b ∈ bd.best) :
    b ∈ cfg.arms ∧ (bd.samples b).getLast? = some cfg.unitsPerRound := by
  obtain ⟨rs, h⟩ := se_master hnd hr
  have hrs : rs ≠ [] := by
    rintro rfl
    exact hcum (by rw [h.cum]; rfl)
  rcases h.exit with ⟨-, h1⟩ | ⟨-, ⟨L', h1, h2⟩, -⟩
  · rcases h1 with ⟨h2, -⟩ | ⟨r, h2, h3⟩
    · exact absurd h2 hrs
    · have hmem : b ∈ r.arms := by
        obtain ⟨_, m, _, _, h4⟩ := h3
        rw [h4, List.mem_filter] at hb
        exact hb.1
      have h2' := h2
      rw [List.getLast?_eq_getElem?] at h2'
      have hb' := (h.chain.sublist _ _ h2').subset hmem
      refine ⟨hb', ?_⟩
      rw [h.ran.faithful.samples b hb', List.getLast?_map, h2]
      simp [hmem]
  · rw [hL] at h1; cases h1
    have hlen : rs.length ≠ 0 := by simpa using hrs
    have := hin _ (by rw [h.cum, getLast?_range_map _ _ hlen])
    rw [Nat.sub_add_cancel (by omega), h2] at this
    simp at this

/-- Scripts where the eliminated arm 1 keeps an estimate lower than the later ones of the remaining arms. -/
def staleHeap : Nat → List (Fl ℚ × Fl ℚ × Fl ℚ) × Nat
  | 0 => ([ln 0 9 9, ln 0 3 1, ln 0 4 3], 0)
  | 1 => ([ln 0 9 9, ln 5 9 2, ln 5 9 2], 0)
  | _ => ([ln 0 9 9, ln 0 4 2, ln 0 5 4], 0)

example : ∃ bd s', seRun demoEnv scriptOps (demoBandit 100) none 10 (demoHeap, 0) = (.ok (some bd), s') ∧
    (bd.cum = [6, 12, 16] ∧ bd.best = [0] ∧ bd.samples 0 = [2, 2, 2] : Bool) = true :=
  returned _ (by decide +kernel)

/-- **C40 (violated)** Ended by the limit, successive elimination returns arm 1, which was eliminated after the first round
and received no samples in the last one. -/
theorem C40_eliminated_returned_violated :
    ∃ bd s', seRun demoEnv scriptOps (demoBandit 9) none 10 (staleHeap, 0) = (.ok (some bd), s') ∧
      (bd.best = [1] ∧ bd.samples 1 = [2, 0] ∧ bd.samples 0 = [2, 2] : Bool) = true :=
  returned _ (by decide +kernel)

/-! ## C41 -/

/-- **C41 (partial)** When no two arms share an upper bound and no two share a lower bound, a LUCB round pulls two
different arms: the first has the lowest estimate (and the largest upper bound among those), the second has the lowest
lower bound among the remaining arms.  If the first arm's estimate is NaN two different arms are drawn at random.
Missing: tied bounds, and selections that raise. -/
theorem C41_selection_partial (hnd : cfg.arms.Nodup) {chosen : List I}
    (hr : selectArms env ops cfg (heap, w) = (.ok chosen, s'))
    (hu : ∀ a ∈ cfg.arms, ∀ b ∈ cfg.arms, ucbV ops heap a = ucbV ops heap b → a = b)
    (hl : ∀ a ∈ cfg.arms, ∀ b ∈ cfg.arms, lcbV ops heap a = lcbV ops heap b → a = b) :
    ∃ b c, chosen = [b, c] ∧ b ≠ c ∧ b ∈ cfg.arms ∧ c ∈ cfg.arms ∧
      (∀ a0, cfg.arms.head? = some a0 → varV ops heap a0 ≠ .nan →
        (varV ops heap b ≠ .nan ∧ ∀ a ∈ cfg.arms, varV ops heap a ≠ .nan → (varV ops heap b).le (varV ops heap a) = true) ∧
        (∀ a ∈ cfg.arms, varV ops heap a = varV ops heap b → ucbV ops heap a ≠ .nan → (ucbV ops heap a).le (ucbV ops heap b) = true) ∧
        varV ops heap c ≠ varV ops heap b ∧
        ∀ a ∈ cfg.arms, varV ops heap a ≠ varV ops heap b → lcbV ops heap a ≠ .nan → (lcbV ops heap c).le (lcbV ops heap a) = true) := by
  unfold selectArms at hr
  replace hr := Arm.bind_inv hr; obtain ⟨⟨heap1, w1⟩, s1, e1, hr⟩ := hr
  obtain ⟨q1, rfl⟩ := get_ok e1
  cases q1
  dsimp only at hr
  replace hr := Arm.bind_inv hr; obtain ⟨⟨ls, us, vs⟩, s2, e2, hr⟩ := hr
  obtain ⟨q2, rfl⟩ := lift_ok e2
  obtain ⟨rfl, rfl, rfl⟩ := collectBounds_ok q2
  dsimp only at hr
  replace hr := Arm.bind_inv hr; obtain ⟨lowest, s3, e3, hr⟩ := hr
  obtain ⟨q3, rfl⟩ := lift_ok e3
  split at hr
  · rename_i hnan
    obtain ⟨-, i, j, hij, rfl⟩ := chooseTwo_ok hr
    refine ⟨_, _, rfl, fun h => hij ?_, List.get_mem _ _, List.get_mem _ _, ?_⟩
    · exact (List.nodup_iff_injective_get.mp hnd) h
    · intro a0 h0 hn
      exfalso
      rcases hA : cfg.arms with _ | ⟨x, l⟩
      · simp [hA] at h0
      · rw [hA] at h0 q3
        simp at h0; subst h0
        refine hn ((Fl.pyMin_nan_iff q3).mp ?_)
        cases lowest <;> simp_all [Fl.isNan]
  · rename_i hnan
    have hln : lowest ≠ .nan := by rintro rfl; simp [Fl.isNan] at hnan
    replace hr := Arm.bind_inv hr; obtain ⟨hi, s4, e4, hr⟩ := hr
    obtain ⟨q4, rfl⟩ := lift_ok e4
    replace hr := Arm.bind_inv hr; obtain ⟨lo, s5, e5, hr⟩ := hr
    obtain ⟨q5, rfl⟩ := lift_ok e5
    replace hr := Arm.bind_inv hr; obtain ⟨b, s6, e6, hr⟩ := hr
    obtain ⟨-, g2⟩ := chooseMasked_ok e6
    replace hr := Arm.bind_inv hr; obtain ⟨c, s7, e7, hr⟩ := hr
    obtain ⟨-, g4⟩ := chooseMasked_ok e7
    obtain ⟨rfl, -⟩ := pure_ok hr
    rw [selectMask, List.map_map, show ((fun x => Fl.eq x hi) ∘ ucbV ops heap) = fun a => (ucbV ops heap a).eq hi from rfl,
      ExpData.filterMask_eq_filter, List.mem_filter, Fl.eq_iff] at g2
    rw [selectMask, List.map_map, show ((fun x => Fl.eq x lo) ∘ lcbV ops heap) = fun a => (lcbV ops heap a).eq lo from rfl,
      ExpData.filterMask_eq_filter, List.mem_filter, Fl.eq_iff] at g4
    obtain ⟨hb, hbu, hbn⟩ := g2
    obtain ⟨hc, hcl, hcn⟩ := g4
    have f1 : ExpData.filterMask ((cfg.arms.map (varV ops heap)).map fun x => x.eq lowest) (cfg.arms.map (ucbV ops heap)) =
        (cfg.arms.filter fun a => (varV ops heap a).eq lowest).map (ucbV ops heap) := by
      rw [List.map_map, ExpData.filterMask_map, show ((fun x => Fl.eq x lowest) ∘ varV ops heap) = fun a => (varV ops heap a).eq lowest from rfl,
        ExpData.filterMask_eq_filter]
    have f2 : ExpData.filterMask (((cfg.arms.map (varV ops heap)).map fun x => x.eq lowest).map fun x => !x) (cfg.arms.map (lcbV ops heap)) =
        (cfg.arms.filter fun a => !(varV ops heap a).eq lowest).map (lcbV ops heap) := by
      rw [List.map_map, List.map_map, ExpData.filterMask_map,
        show (((fun x => !x) ∘ fun x => Fl.eq x lowest) ∘ varV ops heap) = fun a => !(varV ops heap a).eq lowest from rfl,
        ExpData.filterMask_eq_filter]
    rw [f1] at q4
    rw [f2] at q5
    obtain ⟨b', hb', rfl⟩ := List.mem_map.mp (Fl.pyMax_mem q4)
    obtain ⟨c', hc', rfl⟩ := List.mem_map.mp (Fl.pyMin_mem q5)
    have hb1 := List.mem_filter.mp hb'
    have hc1 := List.mem_filter.mp hc'
    have hbb : b = b' := hu b hb b' hb1.1 hbu
    have hcc : c = c' := hl c hc c' hc1.1 hcl
    subst hbb; subst hcc
    have hbv := (Fl.eq_iff _ _).mp hb1.2
    have hcv : varV ops heap c ≠ lowest := by
      intro h
      have := hc1.2
      rw [Bool.not_eq_true', ← Bool.not_eq_true, Fl.eq_iff] at this
      exact this ⟨h, h ▸ hln⟩
    refine ⟨b, c, rfl, ?_, hb, hc, ?_⟩
    · rintro rfl; exact hcv hbv.1
    · intro a0 _ _
      refine ⟨⟨hbv.2, ?_⟩, ?_, ?_, ?_⟩
      · intro a ha han
        rw [hbv.1]
        exact Fl.pyMin_le q3 hln _ (List.mem_map_of_mem ha) han
      · intro a ha hav han
        refine Fl.pyMax_le q4 hbn _ (List.mem_map_of_mem ?_) han
        rw [List.mem_filter, Fl.eq_iff]
        exact ⟨ha, hav.trans hbv.1, hav ▸ hbv.2⟩
      · rw [hbv.1]; exact hcv
      · intro a ha hav han
        refine Fl.pyMin_le q5 hcn _ (List.mem_map_of_mem ?_) han
        rw [List.mem_filter, Bool.not_eq_true', ← Bool.not_eq_true, Fl.eq_iff]
        exact ⟨ha, fun h => hav (h.1.trans hbv.1.symm)⟩

/-- Three arms with pairwise different bounds. -/
def freshHeap : Nat → List (Fl ℚ × Fl ℚ × Fl ℚ) × Nat
  | 0 => ([ln 2 9 5], 0)
  | 1 => ([ln 0 8 1], 0)
  | _ => ([ln 3 12 9], 0)

/-- non-vacuity: arm 1 has the lowest estimate, arm 0 the lowest lower bound among the others -/
example : (selectArms demoEnv scriptOps (demoBandit 100) (freshHeap, 0)).1 = .ok [1, 0] ∧
    (∀ a ∈ [0, 1, 2], ∀ b ∈ [0, 1, 2], ucbV scriptOps freshHeap a = ucbV scriptOps freshHeap b → a = b) ∧
    (∀ a ∈ [0, 1, 2], ∀ b ∈ [0, 1, 2], lcbV scriptOps freshHeap a = lcbV scriptOps freshHeap b → a = b) := by
  refine ⟨by decide +kernel, by decide +kernel, by decide +kernel⟩

/-- **C41 (violated)** With tied lower bounds the same arm can be pulled twice. -/
theorem C41_same_arm_violated :
    (selectArms demoEnv scriptOps ⟨[0, 1], .fin (1 / 10), .fin 0, none, some (.fin 5), 2⟩ (tieHeap, 1)).1 = .ok [0, 0] := by
  decide +kernel

/-- **C41 (violated)** Whenever all estimates are equal (and not NaN), `select_arms` raises `ValueError`: the set of
"remaining" arms is empty.  This is so for every state of the arms and every random outcome. -/
theorem C41_tied_estimates_violated (env : BanditEnv W β) (ops : ArmOps S W β α) (cfg : BanditCfg I α) (heap : I → S) (w : W) (v : Fl α)
    (hne : cfg.arms ≠ []) (hdef : ∀ a ∈ cfg.arms, (ops.ci (heap a)).1.isSome = true ∧ (ops.ci (heap a)).2.isSome = true ∧ (ops.varEst (heap a)).isSome = true)
    (hv : v ≠ .nan) (hall : ∀ a ∈ cfg.arms, varV ops heap a = v) :
    (selectArms env ops cfg (heap, w)).1 = .error .valueError := by
  have hmap : cfg.arms.map (varV ops heap) = cfg.arms.map fun _ => v := List.map_congr_left hall
  obtain ⟨m, hm⟩ := Fl.pyMin_exists (l := cfg.arms.map fun _ => v) (by simpa using hne)
  have hmv : m = v := by
    have := Fl.pyMin_mem hm
    simp at this; exact this.2
  subst hmv
  have hnn : m.isNan = false := by cases m <;> simp_all [Fl.isNan]
  have heq : m.eq m = true := by rw [Fl.eq_iff]; exact ⟨rfl, hv⟩
  unfold selectArms
  rw [Py.bind_ok (Py.get_apply _)]
  dsimp only
  rw [collectBounds_of hdef, hmap, Py.bind_ok (Py.lift_apply _ _)]
  dsimp only
  rw [hm, Py.bind_ok (Py.lift_apply _ _)]
  rw [if_neg (by simp [hnn])]
  have f1 : (List.map (fun x => x.eq m) (cfg.arms.map fun _ => m)) = cfg.arms.map fun _ => true := by
    simp [heq]
  have f2 : ExpData.filterMask (List.map (fun x => !x) (cfg.arms.map fun _ => true)) (cfg.arms.map (lcbV ops heap)) = [] := by
    rw [List.map_map, ExpData.filterMask_map, show ((fun x => !x) ∘ fun (_ : I) => true) = fun _ => false from rfl, ExpData.filterMask_eq_filter]
    simp
  have f3 : ExpData.filterMask (cfg.arms.map fun _ => true) (cfg.arms.map (ucbV ops heap)) = cfg.arms.map (ucbV ops heap) := by
    rw [ExpData.filterMask_map, ExpData.filterMask_eq_filter]
    simp
  rw [f1, f2, f3]
  obtain ⟨hi, hhi⟩ : ∃ hi, Fl.pyMax (cfg.arms.map (ucbV ops heap)) = .ok hi := by
    rcases hA : cfg.arms with _ | ⟨x, l⟩
    · exact absurd hA hne
    · exact ⟨_, rfl⟩
  rw [hhi, Py.bind_ok (Py.lift_apply _ _)]
  rfl

example : (selectArms demoEnv scriptOps ⟨[0, 1], .fin (1 / 10), .fin 0, none, some (.fin 5), 2⟩ (pointHeap, 1)).1 = .error .valueError := by
  decide +kernel

/-! ## C45 -/

/-- **C45** Uniform: a run that ends above the limit returns, in arm order, exactly the arms with the lowest last recorded
estimate, provided the first arm's estimate is not NaN; otherwise it returns no arm. -/
theorem C45_uniform (hnd : cfg.arms.Nodup) (hr : uniformRun env ops cfg all fuel (heap, w) = (.ok (some bd), s'))
    (hL : cfg.sampleLimit = some L) (hab : EndsAbove L bd) :
    bd.best.Sublist cfg.arms ∧
    (∀ a0, cfg.arms.head? = some a0 → bd.finalVar a0 ≠ some .nan →
      bd.best ≠ [] ∧ ∀ a ∈ cfg.arms, (a ∈ bd.best ↔ bd.Lowest cfg.arms a)) ∧
    (∀ a0, cfg.arms.head? = some a0 → bd.finalVar a0 = some .nan → bd.best = []) := by
  obtain ⟨rs, L', h⟩ := uniform_master hnd hr
  have := h.limit
  rw [hL] at this; cases this
  rcases h.exit with ⟨-, h2⟩ | ⟨h1, -⟩
  · exact lowest_of_limit h.ran h.nonempty h2
  · exfalso
    obtain ⟨c, hc, hlt⟩ := hab
    have hlen : rs.length ≠ 0 := by simpa using h.nonempty
    rw [h.cum, getLast?_range_map _ _ hlen, Nat.sub_add_cancel (by omega), Option.some.injEq] at hc
    rw [← hc, h1] at hlt
    simp at hlt

/-- **C45** LUCB: a run that ends above the limit returns exactly the arms with the lowest estimate, unless its last round
also passed the separation test. -/
theorem C45_lucb (hnd : cfg.arms.Nodup) (hr : lucbRun env ops cfg all fuel (heap, w) = (.ok (some bd), s')) :
    checkEnd ops cfg s'.1 = .ok (true, bd.best) ∨ (bd.best.Sublist cfg.arms ∧
    (∀ a0, cfg.arms.head? = some a0 → bd.finalVar a0 ≠ some .nan →
      bd.best ≠ [] ∧ ∀ a ∈ cfg.arms, (a ∈ bd.best ↔ bd.Lowest cfg.arms a)) ∧
    (∀ a0, cfg.arms.head? = some a0 → bd.finalVar a0 = some .nan → bd.best = [])) := by
  obtain ⟨r0, rs, L', h⟩ := lucb_master hnd hr
  rcases h.exit with ⟨-, h2⟩ | ⟨-, h2⟩
  · exact Or.inr (lowest_of_limit h.ran (by simp) h2)
  · exact Or.inl h2

/-- **C45** Successive elimination: a run of at least one round that returns two or more arms, or ends with two or more
candidates left, returns exactly the arms with the lowest estimate. -/
theorem C45_successive_elimination (hnd : cfg.arms.Nodup) (hr : seRun env ops cfg all fuel (heap, w) = (.ok (some bd), s'))
    (hcum : bd.cum ≠ []) :
    (bd.best.length ≤ 1 ∧ ∀ b ∈ bd.best, (bd.samples b).getLast? = some cfg.unitsPerRound) ∨ (bd.best.Sublist cfg.arms ∧
    (∀ a0, cfg.arms.head? = some a0 → bd.finalVar a0 ≠ some .nan →
      bd.best ≠ [] ∧ ∀ a ∈ cfg.arms, (a ∈ bd.best ↔ bd.Lowest cfg.arms a)) ∧
    (∀ a0, cfg.arms.head? = some a0 → bd.finalVar a0 = some .nan → bd.best = [])) := by
  obtain ⟨rs, h⟩ := se_master hnd hr
  have hrs : rs ≠ [] := by
    rintro rfl
    exact hcum (by rw [h.cum]; rfl)
  rcases h.exit with ⟨hlen, h1⟩ | ⟨-, -, h3⟩
  · left
    refine ⟨hlen, fun b hb => ?_⟩
    rcases h1 with ⟨h2, -⟩ | ⟨r, h2, h3⟩
    · exact absurd h2 hrs
    · have hmem : b ∈ r.arms := by
        obtain ⟨_, m, _, _, h4⟩ := h3
        rw [h4, List.mem_filter] at hb
        exact hb.1
      have h2' := h2
      rw [List.getLast?_eq_getElem?] at h2'
      rw [h.ran.faithful.samples b ((h.chain.sublist _ _ h2').subset hmem), List.getLast?_map, h2]
      simp [hmem]
  · exact Or.inr (lowest_of_limit h.ran hrs h3)

/-- non-vacuity: two arms with the same estimate, ended by the limit -/
example : (∃ bd s', uniformRun demoEnv scriptOps ⟨[0, 1], .fin (1 / 10), .fin 0, none, some (.fin 5), 2⟩ none 10 (pointHeap, 0) = (.ok (some bd), s') ∧
      (bd.cum = [4, 8] ∧ bd.best = [0, 1] : Bool) = true) ∧
    (∃ bd s', lucbRun demoEnv scriptOps ⟨[0, 1], .fin (1 / 10), .fin 0, none, some (.fin 3), 2⟩ none 10 (pointHeap, 0) = (.ok (some bd), s') ∧
      (bd.cum = [4] ∧ bd.best = [0, 1] : Bool) = true) ∧
    (∃ bd s', seRun demoEnv scriptOps (demoBandit 9) none 10 (staleHeap, 0) = (.ok (some bd), s') ∧
      (bd.best = [1] : Bool) = true) :=
  ⟨returned _ (by decide +kernel), returned _ (by decide +kernel), returned _ (by decide +kernel)⟩

/-! ## C46 -/

/-- **C46 (partial)** If the *first* arm's estimate is NaN the game is never over.  Missing: a NaN in another position, see
the violation. -/
theorem C46_first_arm_partial (arms : List I) (tol : Fl α) (ls us vs : List (Fl α)) :
    endCondition arms tol ls us (.nan :: vs) = .ok (false, []) := by
  unfold endCondition
  split
  · rfl
  · obtain ⟨m, hm⟩ := Fl.pyMin_exists (l := (.nan : Fl α) :: vs) (by simp)
    have : m = .nan := (Fl.pyMin_nan_iff hm).mpr rfl
    subst this
    rw [hm]
    rfl

/-- **C46 (violated)** A NaN estimate that is not the first one does not stop the test from passing; the arm with the NaN
estimate is then declared best: for all such bounds where that arm's upper bound is below the other lower bounds. -/
theorem C46_nan_wins_violated (a b : I) (tol v l1 l2 u1 u2 : Fl α) (hv : v ≠ .nan) (h1 : u1.isInf = false) (h2 : u2.isInf = false)
    (hsep : u2.lt (l1.sub tol) = true) : endCondition [a, b] tol [l1, l2] [u1, u2] [v, .nan] = .ok (true, [b]) := by
  have hvn : v.isNan = false := by cases v <;> simp_all [Fl.isNan]
  have hm : Fl.pyMin [v, .nan] = .ok v := by
    have hlt : Fl.lt .nan v = false := by cases v <;> rfl
    simp [Fl.pyMin, Fl.minStep, hlt]
  have ha : Fl.argmin [v, .nan] = .ok 1 := by
    simp [Fl.argmin, Fl.argminAux, hvn, show (Fl.nan : Fl α).isNan = true from rfl]
  have hs : v.minStep .nan = v := by simpa [Fl.pyMin] using hm
  simp [endCondition, h1, h2, hs, ha, hvn, at?, bind, Except.bind, Fl.pyMin, hsep]

example : endCondition [0, 1] (.fin (0 : ℚ)) [.fin 5, .fin 0] [.fin 6, .fin 1] [.fin 5, .nan] = .ok (true, [1]) := by decide +kernel

/-! ## C47 -/

/-- **C47** Successive elimination with one arm returns that arm at once, without sampling. -/
theorem C47_successive_elimination (env : BanditEnv W β) (ops : ArmOps S W β α) (cfg : BanditCfg I α) (all : Option (ExpData β)) (a : I)
    (ha : cfg.arms = [a]) (fuel : Nat) (hf : 1 ≤ fuel) (s : (I → S) × W) :
    ∃ bd, seRun env ops cfg all fuel s = (.ok (some bd), s) ∧ bd.best = [a] ∧ bd.cum = [] := by
  obtain ⟨n, rfl⟩ : ∃ n, fuel = n + 1 := ⟨fuel - 1, by omega⟩
  refine ⟨Hist.done Hist.empty [a], ?_, rfl, rfl⟩
  unfold seRun Py.loop
  rw [Py.bind_ok (show seRound env ops cfg all (Hist.empty, cfg.arms) s = (.ok (.inr (Hist.done Hist.empty [a])), s) from by
    unfold seRound
    rw [ha]
    rfl)]
  rfl

theorem selectArms_single {cfg : BanditCfg I α} {a : I} (ha : cfg.arms = [a]) {chosen : List I} {s s' : (I → S) × W} :
    selectArms env ops cfg s ≠ (.ok chosen, s') := by
  intro hr
  unfold selectArms at hr
  replace hr := Arm.bind_inv hr; obtain ⟨⟨heap1, w1⟩, s1, e1, hr⟩ := hr
  dsimp only at hr
  replace hr := Arm.bind_inv hr; obtain ⟨⟨ls, us, vs⟩, s2, e2, hr⟩ := hr
  obtain ⟨q2, rfl⟩ := lift_ok e2
  obtain ⟨rfl, rfl, rfl⟩ := collectBounds_ok q2
  dsimp only at hr
  replace hr := Arm.bind_inv hr; obtain ⟨lowest, s3, e3, hr⟩ := hr
  obtain ⟨q3, rfl⟩ := lift_ok e3
  split at hr
  · obtain ⟨-, i, j, hij, -⟩ := chooseTwo_ok hr
    have h1 := i.2
    have h2 := j.2
    simp only [ha, List.length_singleton] at h1 h2
    exact hij (Fin.ext (by omega))
  · rename_i hnan
    replace hr := Arm.bind_inv hr; obtain ⟨hi, s4, e4, hr⟩ := hr
    obtain ⟨q4, rfl⟩ := lift_ok e4
    replace hr := Arm.bind_inv hr; obtain ⟨lo, s5, e5, hr⟩ := hr
    obtain ⟨q5, -⟩ := lift_ok e5
    have hl : lowest = varV ops heap1 a := by
      have := Fl.pyMin_mem q3
      rw [ha] at this; simpa using this
    have heq : (varV ops heap1 a).eq lowest = true := by
      rw [Fl.eq_iff]
      refine ⟨hl.symm, ?_⟩
      rw [← hl]
      rintro rfl
      simp [Fl.isNan] at hnan
    rw [ha] at q5
    simp [heq, ExpData.filterMask, Fl.pyMin] at q5

/-- **C47 (violated)** LUCB with one arm never returns anything when the first round stays within the limit: `select_arms`
always raises. -/
theorem C47_lucb_violated (env : BanditEnv W β) (ops : ArmOps S W β α) (cfg : BanditCfg I α) (all : Option (ExpData β)) (a : I)
    (ha : cfg.arms = [a]) (hL : cfg.sampleLimit = some L) (hle : L.lt (.fin (cfg.unitsPerRound : α)) = false) (fuel : Nat) (hf : 1 ≤ fuel)
    (s : (I → S) × W) : ∃ e s', lucbRun env ops cfg all fuel s = (.error e, s') := by
  rcases hres : lucbRun env ops cfg all fuel s with ⟨r, s'⟩
  cases r with
  | error e => exact ⟨e, s', rfl⟩
  | ok o =>
    exfalso
    unfold lucbRun at hres
    replace hres := Arm.bind_inv hres; obtain ⟨d, s1, e1, hres⟩ := hres
    replace hres := Arm.bind_inv hres; obtain ⟨h0, s2, e2, hres⟩ := hres
    have ht := updateRecord_total _ e2
    obtain ⟨n, rfl⟩ : ∃ n, fuel = n + 1 := ⟨fuel - 1, by omega⟩
    unfold Py.loop at hres
    replace hres := Arm.bind_inv hres; obtain ⟨x, s3, e3, -⟩ := hres
    unfold lucbRound at e3
    replace e3 := Arm.bind_inv e3; obtain ⟨over, s4, e4, e3⟩ := e3
    obtain ⟨q4, rfl⟩ := lift_ok e4
    obtain ⟨L', hL', hov⟩ := overLimit_ok q4
    rw [hL] at hL'; cases hL'
    have : over = false := by
      rw [← hov]
      simpa [addSamples, ht, Hist.empty, ha] using hle
    subst this
    simp only [Bool.false_eq_true, if_false] at e3
    replace e3 := Arm.bind_inv e3; obtain ⟨chosen, s5, e5, -⟩ := e3
    exact selectArms_single ha e5

example : (lucbRun demoEnv scriptOps ⟨[0], .fin (1 / 10), .fin 0, none, some (.fin 5), 2⟩ none 10 (demoHeap, 0)).1.toOption = none := by
  decide +kernel

/-- **C47 (violated)** Uniform with one arm: as soon as the arm reports a finite upper bound and an estimate, the stopping
test raises `ValueError` (it takes the minimum over no other arms). -/
theorem C47_uniform_violated (ops : ArmOps S W β α) (cfg : BanditCfg I α) (a : I) (ha : cfg.arms = [a]) (heap : I → S)
    (hdef : (ops.ci (heap a)).1.isSome = true ∧ (ops.ci (heap a)).2.isSome = true ∧ (ops.varEst (heap a)).isSome = true)
    (hu : (ucbV ops heap a).isInf = false) (hv : varV ops heap a ≠ .nan) : checkEnd ops cfg heap = .error .valueError := by
  have hvn : (varV ops heap a).isNan = false := by cases h : varV ops heap a <;> simp_all [Fl.isNan]
  unfold checkEnd
  rw [collectBounds_of (by rw [ha]; simpa using hdef)]
  simp [ha, bind, Except.bind, endCondition, hu, Fl.pyMin, Fl.argmin, Fl.argminAux, hvn, at?]

example : (uniformRun demoEnv scriptOps ⟨[0], .fin (1 / 10), .fin 0, none, some (.fin 5), 2⟩ none 10 (demoHeap, 0)).1.toOption = none := by
  decide +kernel

/-- **C47 (partial)** Uniform with one arm returns that arm when the run is ended by the limit and the estimate is not NaN.
Missing: everything else, see the violation. -/
theorem C47_uniform_partial (a : I) (ha : cfg.arms = [a]) (hr : uniformRun env ops cfg all fuel (heap, w) = (.ok (some bd), s'))
    (hv : bd.finalVar a ≠ some .nan) : bd.best = [a] := by
  have hnd : cfg.arms.Nodup := by rw [ha]; simp
  obtain ⟨rs, L', h⟩ := uniform_master hnd hr
  rcases h.exit with ⟨-, h2⟩ | ⟨-, h2⟩
  · obtain ⟨h3, h4, -⟩ := lowest_of_limit h.ran h.nonempty h2
    rw [ha] at h3
    have := (h4 a (by rw [ha]; rfl) hv).1
    rcases List.sublist_singleton.mp h3 with h | h
    · exact absurd h this
    · exact h
  · obtain ⟨b, m, h3, -, -, -, ⟨c, hc, hcb, -⟩, -⟩ := checkEnd_true hnd h2
    rw [ha] at h3 hc
    simp at h3 hc
    exact absurd (hc.trans h3.symm) hcb

example : ∃ bd s', uniformRun demoEnv scriptOps ⟨[0], .fin (1 / 10), .fin 0, none, some (.fin 1), 2⟩ none 10 (demoHeap, 0) = (.ok (some bd), s') ∧
    (bd.best = [0] ∧ bd.finalVar 0 = some (.fin 1) : Bool) = true :=
  returned _ (by decide +kernel)

end Bandit
end Verif
