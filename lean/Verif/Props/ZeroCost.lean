import Verif.Props.Bandits2

/-!
# Property C112: arms whose cost is not positive

The cost of an arm is a float that nothing checks.  If it is 0, an arm that has seen too few units has the variance estimate
`0 * inf`, which is NaN.
-/

set_option linter.unusedSectionVars false
set_option linter.unusedSimpArgs false

namespace Verif
namespace Bandit

variable {I S W β α : Type} [Field α] [LinearOrder α] [IsStrictOrderedRing α] [DecidableEq I]
variable {env : BanditEnv W β} {ops : ArmOps S W β α} {cfg : BanditCfg I α} {all : Option (ExpData β)} {fuel : Nat}
  {heap : I → S} {w : W} {bd : BanditData I α} {s' : (I → S) × W} {L : Fl α}

/-- The arm costs nothing and its variance estimate is infinite (it has seen too few units). -/
def FreeUnfitted (ops : ArmOps S W β α) (s : S) : Prop := ops.cost s = .fin 0 ∧ ops.varEst s = some .pinf

theorem FreeUnfitted.varV {a : I} (h : FreeUnfitted ops (heap a)) : varV ops heap a = .nan := by
  simp [Bandit.varV, h.1, h.2, Fl.mul, Fl.infTimes]

theorem lowestVar_nan {a : I} {rest best : List I} (ha : cfg.arms = a :: rest) (hz : FreeUnfitted ops (heap a)) (h : lowestVarArms ops cfg heap = .ok best) : best = [] := by
  rcases lowestVarArms_ok h with ⟨-, h⟩ | ⟨m, hm, h⟩
  · exact h
  · rw [ha, List.map_cons] at hm
    have : m = .nan := (Fl.pyMin_nan_iff hm).2 hz.varV
    rw [h, this]
    exact List.filter_eq_nil_iff.2 fun b _ => by cases Bandit.varV ops heap b <;> simp [Fl.eq]

theorem not_over_nan {a : I} {rest best : List I} (ha : cfg.arms = a :: rest) (hz : FreeUnfitted ops (heap a)) : checkEnd ops cfg heap ≠ .ok (true, best) := by
  intro h
  obtain ⟨-, -, -, -, -, -, -, -, -, -, -, v, hv, hn⟩ := endCondition_ok (checkEnd_ok h)
  rw [ha, List.map_cons] at hv
  exact hn ((Fl.pyMin_nan_iff hv).2 hz.varV)

/-- **C112** If the first arm costs nothing and its estimate is infinite at the end of a run of Uniform or LUCB, the run was ended by
the limit and returns no arm. -/
theorem C112_no_best (hnd : cfg.arms.Nodup) {a : I} {rest : List I} (ha : cfg.arms = a :: rest)
    (hr : uniformRun env ops cfg all fuel (heap, w) = (.ok (some bd), s') ∨ lucbRun env ops cfg all fuel (heap, w) = (.ok (some bd), s'))
    (hz : FreeUnfitted ops (s'.1 a)) : bd.best = [] ∧ ∃ L, cfg.sampleLimit = some L ∧ EndsAbove L bd := by
  rcases hr with hr | hr
  · obtain ⟨rs, L, h⟩ := uniform_master hnd hr
    have hlen : rs.length ≠ 0 := by simpa using h.nonempty
    rcases h.exit with ⟨h1, h2⟩ | ⟨-, h2⟩
    · refine ⟨lowestVar_nan ha hz h2, L, h.limit, _, by rw [h.cum, getLast?_range_map _ _ hlen], ?_⟩
      rw [Nat.sub_add_cancel (by omega)]
      exact h1
    · exact absurd h2 (not_over_nan ha hz)
  · obtain ⟨r0, rs, L, h⟩ := lucb_master hnd hr
    rcases h.exit with ⟨h1, h2⟩ | ⟨-, h2⟩
    · refine ⟨lowestVar_nan ha hz h2, L, h.limit, _, by rw [h.cum, getLast?_range_map _ _ (by omega)], ?_⟩
      rw [Nat.add_sub_cancel]
      exact h1
    · exact absurd h2 (not_over_nan ha hz)

theorem not_over_free {best : List I} (hall : ∀ b ∈ cfg.arms, varV ops heap b = .nan → FreeUnfitted ops (heap b) ∧ (ops.ci (heap b)).2 = some .pinf)
    {a : I} (ha : a ∈ cfg.arms) (hz : FreeUnfitted ops (heap a)) : checkEnd ops cfg heap ≠ .ok (true, best) := by
  intro h
  obtain ⟨i, b, u, m, h1, h2, -, h4, -, h6, -⟩ := endCondition_ok (checkEnd_ok h)
  obtain ⟨v, hv, hv'⟩ := Fl.argmin_spec h1
  rw [List.getElem?_map, h2] at hv h4
  simp only [Option.map_some, Option.some.injEq] at hv h4
  subst hv h4
  have hb : b ∈ cfg.arms := List.mem_of_getElem? h2
  have hn : varV ops heap b = .nan := by
    by_contra hne
    exact (hv' hne).1 (by rw [← hz.varV]; exact List.mem_map_of_mem ha)
  obtain ⟨hc, hi⟩ := hall b hb hn
  have : ucbV ops heap b = .nan := by simp [ucbV, hi, hc.1, Fl.mul, Fl.infTimes]
  exact (Fl.ne_nan_of_lt _ _ h6).1 this

/-- **C112** While an arm that costs nothing, at whatever position, has the interval and the estimate of an arm that has seen too few
units, and no other estimate is NaN, Uniform and LUCB do not declare an arm best: only the limit ends the run. -/
theorem C112_only_limit (hnd : cfg.arms.Nodup) (hr : uniformRun env ops cfg all fuel (heap, w) = (.ok (some bd), s') ∨ lucbRun env ops cfg all fuel (heap, w) = (.ok (some bd), s'))
    (hall : ∀ b ∈ cfg.arms, varV ops s'.1 b = .nan → FreeUnfitted ops (s'.1 b) ∧ (ops.ci (s'.1 b)).2 = some .pinf)
    {a : I} (ha : a ∈ cfg.arms) (hz : FreeUnfitted ops (s'.1 a)) : ∃ L, cfg.sampleLimit = some L ∧ EndsAbove L bd := by
  rcases hr with hr | hr
  · obtain ⟨rs, L, h⟩ := uniform_master hnd hr
    have hlen : rs.length ≠ 0 := by simpa using h.nonempty
    rcases h.exit with ⟨h1, h2⟩ | ⟨-, h2⟩
    · refine ⟨L, h.limit, _, by rw [h.cum, getLast?_range_map _ _ hlen], ?_⟩
      rw [Nat.sub_add_cancel (by omega)]
      exact h1
    · exact absurd h2 (not_over_free hall ha hz)
  · obtain ⟨r0, rs, L, h⟩ := lucb_master hnd hr
    rcases h.exit with ⟨h1, h2⟩ | ⟨-, h2⟩
    · refine ⟨L, h.limit, _, by rw [h.cum, getLast?_range_map _ _ (by omega)], ?_⟩
      rw [Nat.add_sub_cancel]
      exact h1
    · exact absurd h2 (not_over_free hall ha hz)

theorem record_some {k : I → Nat} {a : I} {h : Hist I α} {st : (I → S) × W}
    (hv : (ops.ci (st.1 a)).1.isSome = true ∧ (ops.ci (st.1 a)).2.isSome = true ∧ (ops.varEst (st.1 a)).isSome = true) :
    ∃ h', record ops k a h st = (.ok h', st) := by
  obtain ⟨heap, w⟩ := st
  simp only [Option.isSome_iff_exists] at hv
  obtain ⟨⟨l, hl⟩, ⟨u, hu⟩, v, hv⟩ := hv
  simp only [record, hl, hu, hv, costTimes]
  exact ⟨_, rfl⟩

theorem record_forEach_some {k : I → Nat} {st : (I → S) × W} (l : List I)
    (hv : ∀ a ∈ l, (ops.ci (st.1 a)).1.isSome = true ∧ (ops.ci (st.1 a)).2.isSome = true ∧ (ops.varEst (st.1 a)).isSome = true) (h : Hist I α) :
    ∃ h', Py.forEach (record ops k) l h st = (.ok h', st) := by
  induction l generalizing h with
  | nil => exact ⟨h, rfl⟩
  | cons a l ih =>
    obtain ⟨h1, e1⟩ := record_some (k := k) (h := h) (hv a (by simp))
    obtain ⟨h2, e2⟩ := ih (fun b hb => hv b (by simp [hb])) h1
    refine ⟨h2, ?_⟩
    rw [Py.forEach_cons, Py.bind_apply, e1]
    exact e2

/-- **C112** If the first of at least two arms costs nothing and its estimate is infinite after the first round of updates, successive
elimination ends with a `ValueError`. -/
theorem C112_successive_elimination (hnd : cfg.arms.Nodup) {a : I} {rest : List I} (ha : cfg.arms = a :: rest) (hrest : rest ≠ []) (hL : cfg.sampleLimit = some L)
    (h0 : L.lt (.fin 0) = false) (hpull : Py.forEach (pull env ops cfg all) cfg.arms () (heap, w) = (.ok (), s'))
    (hdef : ∀ b ∈ cfg.arms, (ops.ci (s'.1 b)).1.isSome = true ∧ (ops.ci (s'.1 b)).2.isSome = true ∧ (ops.varEst (s'.1 b)).isSome = true)
    (hz : FreeUnfitted ops (s'.1 a)) : seRun env ops cfg all (fuel + 1) (heap, w) = (.error .valueError, s') := by
  have hlen : ¬ cfg.arms.length ≤ 1 := by
    rw [ha, List.length_cons]
    have := List.length_pos_iff.2 hrest
    omega
  obtain ⟨h', hh'⟩ := record_forEach_some (k := fun _ => 0) cfg.arms hdef (addSamples (cfg.arms.length * cfg.unitsPerRound) Hist.empty)
  obtain ⟨-, hext, -⟩ := record_forEach hnd hh'
  have hel : eliminate (cfg.arms.foldl (fun h a => setLastSample cfg.unitsPerRound a h) h') cfg.arms = .error .valueError := by
    obtain ⟨-, -, e3, -⟩ := setLast_fold cfg.unitsPerRound cfg.arms hnd h'
    have hv : cfg.arms.mapM (fun b => lastOf ((cfg.arms.foldl (fun h a => setLastSample cfg.unitsPerRound a h) h').var b)) = .ok (cfg.arms.map (varV ops s'.1)) := by
      apply mapM_ok_of
      intro b hb
      obtain ⟨l, u, v, f1, f2, f3, f4, f5, f6, f7⟩ := hext b hb
      simp [e3, lastOf, f6, varV, f3]
    have hmin : Fl.pyMin (cfg.arms.map (varV ops s'.1)) = .ok .nan := by
      obtain ⟨m, hm⟩ := Fl.pyMin_exists (l := cfg.arms.map (varV ops s'.1)) (by simp [ha])
      have hm' := hm
      rw [ha, List.map_cons] at hm
      rw [hm', (Fl.pyMin_nan_iff hm).2 hz.varV]
    unfold eliminate
    rw [hv]
    simp only [Bind.bind, Except.bind, hmin]
    rw [List.map_map, show ((fun x => Fl.eq x .nan) ∘ varV ops s'.1) = fun a => (varV ops s'.1 a).eq .nan from rfl, ExpData.filterMask_eq_filter,
      List.filter_eq_nil_iff.2 fun b _ => by cases Bandit.varV ops s'.1 b <;> simp [Fl.eq]]
    rfl
  unfold seRun Py.loop seRound
  rw [if_neg hlen, Py.bind_apply, Py.bind_apply]
  have hov : overLimit cfg (Hist.empty : Hist I α).total = .ok false := by
    simp only [overLimit, hL, Hist.empty, Nat.cast_zero, h0]
  simp only [hov, Py.lift]
  simp only [Py.bind_apply, hpull, hh', hel, Py.lift, Bool.false_eq_true, if_false]

/-- an arm without cost whose estimate is infinite, and an arm with cost 1 -/
def freeOps : ArmOps (Fl ℚ × Fl ℚ × Fl ℚ × Fl ℚ) Nat Int ℚ where
  update := fun _ _ s => (.ok (s.1.2.1, s.1.2.2.1), s.1, s.2 + 1)
  ci := fun s => (some s.2.1, some s.2.2.1)
  varEst := fun s => some s.2.2.2
  cost := fun s => s.1
  numUnits := fun _ => 0
  reset := id

/-- the states of the two arms -/
def freeHeap : Nat → Fl ℚ × Fl ℚ × Fl ℚ × Fl ℚ
  | 0 => (.fin 0, .fin 0, .pinf, .pinf)
  | _ => (.fin 1, ln 1 2 (3 / 2))

/-- non-vacuity: Uniform returns no arm if the arm without cost is the first one and the other arm if it is not, after the limit in both
cases; successive elimination raises -/
example : (∃ bd s', uniformRun demoEnv freeOps ⟨[1, 0], .fin (1 / 10), .fin 0, none, some (.fin 20), 2⟩ none 10 (freeHeap, 0) = (.ok (some bd), s') ∧
      (bd.best = [1] ∧ bd.cum = [4, 8, 12, 16, 20, 24] : Bool) = true) ∧ (∃ bd s', uniformRun demoEnv freeOps ⟨[0, 1], .fin (1 / 10), .fin 0, none, some (.fin 20), 2⟩ none 10 (freeHeap, 0) = (.ok (some bd), s') ∧
      (bd.best = [] ∧ bd.cum = [4, 8, 12, 16, 20, 24] : Bool) = true) ∧
    (∀ fuel, (seRun demoEnv freeOps ⟨[0, 1], .fin (1 / 10), .fin 0, none, some (.fin 20), 2⟩ none (fuel + 1) (freeHeap, 0)).1 = .error .valueError) := by
  refine ⟨returned _ (by decide +kernel), returned _ (by decide +kernel), fun fuel => ?_⟩
  have hp : (Py.forEach (pull demoEnv freeOps ⟨[0, 1], .fin (1 / 10), .fin 0, none, some (.fin 20), 2⟩ none) [0, 1] () (freeHeap, 0)) = (.ok (), freeHeap, 4) := by
    have hu : Function.update (Function.update freeHeap 0 (freeHeap 0)) 1 (freeHeap 1) = freeHeap := by simp
    exact congrArg (fun h => ((.ok () : Except PyErr Unit), h, 4)) hu
  have := C112_successive_elimination (fuel := fuel) (cfg := ⟨[0, 1], .fin (1 / 10), .fin 0, none, some (.fin 20), 2⟩) (ops := freeOps) (a := 0) (rest := [1]) (by decide) rfl (by simp) rfl
    (by decide +kernel) hp (fun b _ => ⟨rfl, rfl, rfl⟩) ⟨rfl, rfl⟩
  rw [this]

/-! ## Negative costs -/

theorem argminAux_const (x : α) (n i bi : Nat) : Fl.argminAux (List.replicate n (Fl.fin x)) i (.fin x) bi = bi := by
  induction n generalizing i with
  | zero => rfl
  | succ n ih =>
    rw [List.replicate_succ]
    unfold Fl.argminAux
    simp only [Fl.isNan, Fl.lt, lt_self_iff_false, decide_false, Bool.or_self, Bool.false_eq_true, if_false]
    exact ih _

theorem pyMin_const (x : α) (n : Nat) : Fl.pyMin (List.replicate (n + 1) (Fl.fin x)) = .ok (.fin x) := by
  obtain ⟨m, hm⟩ := Fl.pyMin_exists (l := List.replicate (n + 1) (Fl.fin x)) (by simp)
  rw [hm, List.eq_of_mem_replicate (Fl.pyMin_mem hm)]

/-- **C112** With a negative cost the bounds change places: arms that have the same cost, interval and estimate pass the stopping test as
soon as the interval, times the absolute value of the cost, is longer than `error_tol`; the first of them is declared best. -/
theorem C112_negative_cost {a : I} {rest : List I} (ha : cfg.arms = a :: rest) (hrest : rest ≠ []) {c l u v t : α} (htol : cfg.errorTol = .fin t) (hlen : t < -c * (u - l))
    (hst : ∀ b ∈ cfg.arms, ops.cost (heap b) = .fin c ∧ ops.ci (heap b) = (some (.fin l), some (.fin u)) ∧ ops.varEst (heap b) = some (.fin v)) :
    checkEnd ops cfg heap = .ok (true, [a]) := by
  have hcol := collectBounds_of (ops := ops) (arms := cfg.arms) (heap := heap) fun b hb => by
    obtain ⟨-, h2, h3⟩ := hst b hb
    simp [h2, h3]
  obtain ⟨n, hn⟩ : ∃ n, rest.length = n + 1 := ⟨rest.length - 1, by have := List.length_pos_iff.2 hrest; omega⟩
  have hlenA : cfg.arms.length = n + 2 := by rw [ha, List.length_cons, hn]
  have rep : ∀ (f : I → Fl α) (x : α), (∀ b ∈ cfg.arms, f b = .fin x) → cfg.arms.map f = List.replicate (n + 2) (.fin x) := by
    intro f x h
    rw [← hlenA, ← List.map_const']
    exact List.map_congr_left h
  rw [rep _ (c * l) fun b hb => by obtain ⟨h1, h2, -⟩ := hst b hb; simp [lcbV, h1, h2, Fl.mul],
    rep _ (c * u) fun b hb => by obtain ⟨h1, h2, -⟩ := hst b hb; simp [ucbV, h1, h2, Fl.mul],
    rep _ (c * v) fun b hb => by obtain ⟨h1, -, h3⟩ := hst b hb; simp [varV, h1, h3, Fl.mul]] at hcol
  unfold checkEnd
  rw [hcol]
  simp only [Bind.bind, Except.bind]
  have harg : Fl.argmin (List.replicate (n + 2) (Fl.fin (c * v))) = .ok 0 := by
    rw [List.replicate_succ]
    simp only [Fl.argmin, argminAux_const]
  have herase : (List.replicate (n + 2) (Fl.fin (c * l))).eraseIdx 0 = List.replicate (n + 1) (.fin (c * l)) := rfl
  have hany : (List.replicate (n + 2) (Fl.fin (c * u))).any Fl.isInf = false := by simp [Fl.isInf]
  have hlt : (Fl.fin (c * u)).lt ((Fl.fin (c * l)).sub cfg.errorTol) = true := by
    rw [htol]
    simp only [Fl.sub, Fl.neg, Fl.add, Fl.lt, decide_eq_true_eq]
    linarith
  unfold endCondition
  simp only [hany, Bool.false_eq_true, if_false, Bind.bind, Except.bind, pyMin_const, Fl.isNan, harg, herase]
  simp only [at?, List.replicate_succ, List.getElem?_cons_zero, ha]
  simp only [hlt]

/-- non-vacuity: two arms with cost -1 and the interval (1, 2) are separated, with cost 1 they are not -/
example : checkEnd freeOps ⟨[0, 1], .fin (1 / 10), .fin 0, none, some (.fin 20), 2⟩ (fun _ => (.fin (-1), ln 1 2 (3 / 2))) = .ok (true, [0]) ∧
    (∃ bd s', uniformRun demoEnv freeOps ⟨[0, 1], .fin (1 / 10), .fin 0, none, some (.fin 20), 2⟩ none 10 (fun _ => (.fin (-1), ln 1 2 (3 / 2)), 0) = (.ok (some bd), s') ∧
      (bd.best = [0] ∧ bd.cum = [4] : Bool) = true) ∧
    (∃ bd s', uniformRun demoEnv freeOps ⟨[0, 1], .fin (1 / 10), .fin 0, none, some (.fin 20), 2⟩ none 10 (fun _ => (.fin 1, ln 1 2 (3 / 2)), 0) = (.ok (some bd), s') ∧
      (bd.best = [0, 1] ∧ bd.cum = [4, 8, 12, 16, 20, 24] : Bool) = true) := by
  refine ⟨?_, returned _ (by decide +kernel), returned _ (by decide +kernel)⟩
  exact C112_negative_cost (c := -1) (l := 1) (u := 2) (v := 3 / 2) (t := 0) rfl (by simp) rfl (by norm_num) fun b _ => ⟨rfl, rfl, rfl⟩

end Bandit
end Verif
