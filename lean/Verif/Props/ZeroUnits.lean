import Verif.Props.Repeated

/-!
# Property C34: rounds without units

`units_per_round` is not checked either.  With 0 units per round the sample limit is never exceeded.
-/

set_option linter.unusedSectionVars false
set_option linter.unusedSimpArgs false

namespace Verif
namespace Bandit

variable {I S W β α : Type} [Field α] [LinearOrder α] [IsStrictOrderedRing α] [DecidableEq I]
variable {env : BanditEnv W β} {ops : ArmOps S W β α} {cfg : BanditCfg I α} {all : Option (ExpData β)} {fuel : Nat}
  {heap : I → S} {w : W} {bd : BanditData I α} {s' : (I → S) × W} {L : Fl α}

theorem samplesAfter_zero (rs : List (RoundRec I S β α)) (k : Nat) : samplesAfter 0 rs k = 0 := by
  simp [samplesAfter]

/-- **C34** At least one unit per round is needed: with none, a run whose limit is not negative is never ended by the limit.  Uniform and
LUCB only return an arm that passes the stopping test, successive elimination at most one arm. -/
theorem C34_zero_units (hnd : cfg.arms.Nodup) (hu : cfg.unitsPerRound = 0) (hL : cfg.sampleLimit = some L) (h0 : L.lt (.fin 0) = false) :
    (uniformRun env ops cfg all fuel (heap, w) = (.ok (some bd), s') → (∀ c ∈ bd.cum, c = 0) ∧ checkEnd ops cfg s'.1 = .ok (true, bd.best)) ∧
    (lucbRun env ops cfg all fuel (heap, w) = (.ok (some bd), s') → (∀ c ∈ bd.cum, c = 0) ∧ checkEnd ops cfg s'.1 = .ok (true, bd.best)) ∧
    (seRun env ops cfg all fuel (heap, w) = (.ok (some bd), s') → (∀ c ∈ bd.cum, c = 0) ∧ bd.best.length ≤ 1) := by
  have within : (∀ c ∈ bd.cum, c = 0) → EndsWithin L bd := by
    intro h c hc
    rw [h c (List.mem_of_getLast? hc), Nat.cast_zero]
    exact h0
  refine ⟨fun hr => ?_, fun hr => ?_, fun hr => ?_⟩
  · obtain ⟨rs, L', h⟩ := uniform_master hnd hr
    have hc : ∀ c ∈ bd.cum, c = 0 := by
      intro c hc
      rw [h.cum, List.mem_map] at hc
      obtain ⟨k, -, rfl⟩ := hc
      simp [hu]
    exact ⟨hc, uniform_within' hr hL (within hc)⟩
  · obtain ⟨r0, rs, L', h⟩ := lucb_master hnd hr
    have hc : ∀ c ∈ bd.cum, c = 0 := by
      intro c hc
      rw [h.cum, List.mem_map] at hc
      obtain ⟨k, -, rfl⟩ := hc
      simp [hu]
    exact ⟨hc, lucb_within' hr hL (within hc)⟩
  · obtain ⟨rs, h⟩ := se_master hnd hr
    have hc : ∀ c ∈ bd.cum, c = 0 := by
      intro c hc
      rw [h.cum, List.mem_map] at hc
      obtain ⟨k, -, rfl⟩ := hc
      rw [hu, samplesAfter_zero]
    exact ⟨hc, (C111_successive_elimination hr hL h0 (within hc)).1⟩

/-- **C34** Hence, with 0 units per round, a run of Uniform with arms whose intervals overlap from the start and never change never
returns, whatever its limit from 0 on. -/
theorem C34_zero_units_never (hnd : cfg.arms.Nodup) (hu : cfg.unitsPerRound = 0) (hL : cfg.sampleLimit = some L) (h0 : L.lt (.fin 0) = false)
    (hk : ∀ d δ s w, (ops.update d δ (s, w)).2.1 = s) (hov : ∀ best, checkEnd ops cfg heap ≠ .ok (true, best)) :
    uniformRun env ops cfg all fuel (heap, w) ≠ (.ok (some bd), s') ∧ lucbRun env ops cfg all fuel (heap, w) ≠ (.ok (some bd), s') := by
  have hz := C34_zero_units (env := env) (ops := ops) (all := all) (fuel := fuel) (heap := heap) (w := w) (bd := bd) (s' := s') hnd hu hL h0
  have := triple_all (fun h => h = heap) env ops cfg all (fun a _ d s w hs => by
    subst hs
    simp only [updateArm, hk, Function.update_eq_self]) fuel heap w rfl
  refine ⟨fun hr => ?_, fun hr => ?_⟩
  · have h1 := this.1
    rw [hr] at h1
    exact hov bd.best (h1 ▸ (hz.1 hr).2)
  · have h1 := this.2.1
    rw [hr] at h1
    exact hov bd.best (h1 ▸ (hz.2.1 hr).2)

/-- two arms with overlapping intervals -/
def overlapping : Nat → Fl ℚ × Fl ℚ × Fl ℚ
  | 0 => ln 0 6 1
  | _ => ln 5 7 6

/-- non-vacuity: the run with overlapping intervals never ends; with separated intervals it ends without any units -/
example : (∀ fuel bd s', uniformRun demoEnv constOps ⟨[0, 1], .fin (1 / 10), .fin 0, none, some (.fin 20), 0⟩ none fuel (overlapping, 0) ≠ (.ok (some bd), s')) ∧
    (∃ bd s', uniformRun demoEnv constOps ⟨[0, 1], .fin (1 / 10), .fin 0, none, some (.fin 20), 0⟩ none 5 (twoArms, 0) = (.ok (some bd), s') ∧ (bd.best = [0] ∧ bd.cum = [0] : Bool) = true) := by
  refine ⟨fun fuel bd s' => ?_, returned _ (by decide +kernel)⟩
  refine (C34_zero_units_never (by decide) rfl rfl (by decide +kernel) (fun _ _ _ _ => rfl) fun best h => ?_).1
  have : checkEnd constOps ⟨[0, 1], .fin (1 / 10), .fin 0, none, some (.fin 20), 0⟩ overlapping = .ok (false, [0]) := by
    have h1 : (match checkEnd constOps ⟨[0, 1], .fin (1 / 10), .fin 0, none, some (.fin 20), 0⟩ overlapping with | .ok (false, [0]) => true | _ => false) = true := by decide +kernel
    split at h1
    · assumption
    · cases h1
  rw [this] at h
  cases h

end Bandit
end Verif
