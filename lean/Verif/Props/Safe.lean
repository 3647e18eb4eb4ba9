import Verif.Spec.Safe
import Verif.Lemmas.Safe
import Verif.Props.Bandits2
import Mathlib.Algebra.Order.Floor.Ring
import Mathlib.Data.Rat.Floor

/-!
# C78: a run with reliable arms does not raise
-/

set_option linter.unusedSectionVars false

namespace Verif
namespace Bandit
variable {I S W β α : Type} [Field α] [LinearOrder α] [IsStrictOrderedRing α] [DecidableEq I]
variable {env : BanditEnv W β} {ops : ArmOps S W β α} {cfg : BanditCfg I α} {New Old : I → S → Prop} {G : ExpData β → Prop}

/-- an arm with estimates whose cost-adjusted variance estimate is `v` -/
def Agreed (ops : ArmOps S W β α) (v : Fl α) (s : S) : Prop :=
  ∃ l u x, ops.ci s = (some l, some u) ∧ ops.varEst s = some x ∧ (ops.cost s).mul x = v

theorem ready_nil {heap : I → S} {w : W} (h : ∀ a ∈ cfg.arms, New a (heap a) ∨ Old a (heap a)) : Ready New Old cfg.arms [] (heap, w) :=
  fun a ha => ⟨h a ha, fun hm => by simp at hm⟩

/-- **C78** A uniform run over at least two reliable arms, with a finite sample limit and nonempty batches, returns a result: it neither
raises nor runs for more than `limit + 2` rounds. -/
theorem C78_uniform [FloorRing α] (hr : Reliable env ops cfg New Old G) (h2 : 2 ≤ cfg.arms.length) {l : α} (hL : cfg.sampleLimit = some (.fin l))
    (hu : 1 ≤ cfg.unitsPerRound) (heap : I → S) (hh : ∀ a ∈ cfg.arms, New a (heap a) ∨ Old a (heap a)) (w : W) :
    ∃ bd s', uniformRun env ops cfg none (⌊l⌋₊ + 2) (heap, w) = (.ok (some bd), s') := by
  have ht := (C34_all env ops cfg none hL (by rintro h; simp [h] at h2) hu (heap, w)).1
  rcases post_uniformRun (X := fun _ _ => False) hr h2 hL (⌊l⌋₊ + 2) (heap, w) (ready_nil hh) with ⟨r, s', e, -⟩ | ⟨_, _, _, h⟩
  · rw [e] at ht
    cases r with
    | none => exact absurd rfl ht
    | some bd => exact ⟨bd, s', e⟩
  · exact h.elim

/-- **C78** A successive-elimination run over reliable arms, with a finite sample limit that is not negative and nonempty batches, returns a
result. -/
theorem C78_elimination [FloorRing α] (hr : Reliable env ops cfg New Old G) (h1 : cfg.arms ≠ []) {l : α} (hL : cfg.sampleLimit = some (.fin l)) (hl : 0 ≤ l)
    (hu : 1 ≤ cfg.unitsPerRound) (heap : I → S) (hh : ∀ a ∈ cfg.arms, New a (heap a) ∨ Old a (heap a)) (w : W) :
    ∃ bd s', seRun env ops cfg none (⌊l⌋₊ + 2) (heap, w) = (.ok (some bd), s') := by
  have ht := (C34_all env ops cfg none hL h1 hu (heap, w)).2.2
  rcases post_seRun (X := fun _ _ => False) hr hL (by simp [Fl.lt, hl]) (⌊l⌋₊ + 2) (heap, w) (ready_nil hh) with ⟨r, s', e, -⟩ | ⟨_, _, _, h⟩
  · rw [e] at ht
    cases r with
    | none => exact absurd rfl ht
    | some bd => exact ⟨bd, s', e⟩
  · exact h.elim

/-- **C78 (partial)** A LUCB run over at least two reliable arms, with a finite sample limit and nonempty batches, returns a result, with one
exception: it raises a `ValueError` when all arms have the same cost-adjusted estimate.  Missing: that it returns a result in this case too
(it does not). -/
theorem C78_lucb_partial [FloorRing α] (hr : Reliable env ops cfg New Old G) (h2 : 2 ≤ cfg.arms.length) {l : α} (hL : cfg.sampleLimit = some (.fin l))
    (hu : 1 ≤ cfg.unitsPerRound) (heap : I → S) (hh : ∀ a ∈ cfg.arms, New a (heap a) ∨ Old a (heap a)) (w : W) :
    (∃ bd s', lucbRun env ops cfg none (⌊l⌋₊ + 2) (heap, w) = (.ok (some bd), s')) ∨
    ∃ s', lucbRun env ops cfg none (⌊l⌋₊ + 2) (heap, w) = (.error .valueError, s') ∧ AllTie ops cfg.arms s'.1 := by
  have ht := (C34_all env ops cfg none hL (by rintro h; simp [h] at h2) hu (heap, w)).2.1
  rcases post_lucbRun hr h2 hL (⌊l⌋₊ + 2) (heap, w) (ready_nil hh) with ⟨r, s', e, -⟩ | ⟨x, s', e, rfl, -, h⟩
  · rw [e] at ht
    cases r with
    | none => exact absurd rfl ht
    | some bd => exact Or.inl ⟨bd, s', e⟩
  · exact Or.inr ⟨s', e, h⟩

/-- **C78 (violated)** Arms that agree after their first batch: the LUCB run raises a `ValueError` when it selects arms for the first time. -/
theorem C78_lucb_violated {v : Fl α} (ht : FirstTie env ops cfg New G v) (hv : v ≠ .nan) (h1 : cfg.arms ≠ []) (hnd : cfg.arms.Nodup) {L : Fl α}
    (hL : cfg.sampleLimit = some L) (hlow : L.lt (.fin ((cfg.arms.length * cfg.unitsPerRound : Nat) : α)) = false) (fuel : Nat)
    (heap : I → S) (hh : ∀ a ∈ cfg.arms, New a (heap a)) (w : W) :
    ∃ s', lucbRun env ops cfg none (fuel + 1) (heap, w) = (.error .valueError, s') := by
  obtain ⟨d, w1, hg, hd⟩ := ht.generate w
  have hloop : Py.Post (fun s : (I → S) × W => (∀ a ∈ ([] : List I), Agreed ops v (s.1 a)) ∧ (∀ a ∈ cfg.arms, a ∉ ([] : List I) → New a (s.1 a)) ∧ (Hist.empty : Hist I α).total = 0)
      (Py.forEach (updateRecord ops cfg d) cfg.arms Hist.empty)
      (fun h (s : (I → S) × W) => (∀ a ∈ cfg.arms, Agreed ops v (s.1 a)) ∧ (∀ a ∈ cfg.arms, a ∉ cfg.arms → New a (s.1 a)) ∧ h.total = 0) (fun _ _ => False) := by
    refine Py.Post.forEach (fun pre (h : Hist I α) (s : (I → S) × W) => (∀ a ∈ pre, Agreed ops v (s.1 a)) ∧ (∀ a ∈ cfg.arms, a ∉ pre → New a (s.1 a)) ∧ h.total = 0) cfg.arms ?_ _
    rintro pre a post h hl ⟨hp, w⟩ ⟨i1, i2, i3⟩
    have ha : a ∈ cfg.arms := by rw [hl]; simp
    have hapre : a ∉ pre := by
      rw [hl, List.nodup_append] at hnd
      exact fun hm => hnd.2.2 a hm a (by simp) rfl
    obtain ⟨r, s', w', l, u, x, e1, e2, e3, e4⟩ := ht.first a ha d (hp a) w hd (i2 a ha hapre)
    have e : updateRecord ops cfg d a h (hp, w) = (.ok { h with
        lcb := Function.update h.lcb a (h.lcb a ++ [(ops.cost s').mul l])
        ucb := Function.update h.ucb a (h.ucb a ++ [(ops.cost s').mul u])
        var := Function.update h.var a (h.var a ++ [(ops.cost s').mul x])
        samples := Function.update h.samples a (h.samples a ++ [cfg.unitsPerRound]) }, Function.update hp a s', w') := by
      simp only [updateRecord, Py.bind_apply, updateArm, e1, Except.map, record, Function.update_self, e2, e3, costTimes]
      rfl
    refine Or.inl ⟨_, _, e, ?_, ?_, i3⟩
    · intro b hb
      rcases List.mem_append.1 hb with hb | hb
      · have : b ≠ a := fun e => hapre (e ▸ hb)
        simpa only [Function.update_of_ne this] using i1 b hb
      · rw [List.mem_singleton.1 hb]
        simp only [Function.update_self]
        exact ⟨l, u, x, e2, e3, e4⟩
    · intro b hb hn
      have : b ≠ a := fun e => hn (by simp [e])
      simpa only [Function.update_of_ne this] using i2 b hb fun hm => hn (List.mem_append_left _ hm)
  obtain ⟨h, ⟨heap', w2⟩, e, j1, -, j3⟩ := hloop.returns (s := (heap, w1)) ⟨by simp, fun a ha _ => hh a ha, rfl⟩
  have hsel := C41_tied_estimates_violated env ops cfg heap' w2 v h1 (fun a ha => by
    obtain ⟨l, u, x, e2, e3, e4⟩ := j1 a ha
    simp [e2, e3]) hv (fun a ha => by
    obtain ⟨l, u, x, e2, e3, e4⟩ := j1 a ha
    simp [varV, e3, e4])
  unfold lucbRun lucbFirst
  simp only [Py.bind_apply, generate, hg, e, Py.loop, lucbRound, overLimit, hL, Py.lift_apply, addSamples, j3, Nat.zero_add, hlow]
  obtain ⟨x, s', es⟩ : ∃ x s', selectArms env ops cfg (heap', w2) = (x, s') := ⟨_, _, rfl⟩
  rw [es] at hsel
  dsimp only at hsel
  subst hsel
  simp only [Bool.false_eq_true, ↓reduceIte, Py.bind_apply, es]
  exact ⟨_, rfl⟩

/-! A case: two arms counting their units, arm `a` with the estimate `a + 1` and a confidence radius that shrinks with the number of units. -/

/-- arms with a fixed estimate; the state is the name of the arm and the number of units -/
def steadyOps (est : Nat → ℚ) : ArmOps (Nat × Nat) Unit ℚ ℚ where
  update := fun d _ s => (.ok (.fin (est s.1.1 - 3 / (s.1.2 + d.nUnits)), .fin (est s.1.1 + 3 / (s.1.2 + d.nUnits))),
    (s.1.1, s.1.2 + d.nUnits), s.2)
  ci := fun s => if s.2 = 0 then (none, none) else (some (.fin (est s.1 - 3 / s.2)), some (.fin (est s.1 + 3 / s.2)))
  varEst := fun s => if s.2 = 0 then none else some (.fin (est s.1))
  cost := fun _ => .fin 2
  numUnits := fun s => s.2
  reset := fun s => (s.1, 0)

/-- batches of units without covariates -/
def steadyEnv : BanditEnv Unit ℚ where
  generate := fun n w => (.ok (ExpData.new (some (.d2 0 (List.replicate n []))) (some (List.replicate n 1)) (some (List.replicate n 0))), w)
  choice := fun _ h w => (⟨0, h⟩, w)
  choice2 := fun _ h w => (⟨(⟨0, by omega⟩, ⟨1, by omega⟩), by simp⟩, w)

/-- two arms, at most ten samples -/
def steadyCfg : BanditCfg Nat ℚ := ⟨[0, 1], .fin (1 / 10), .fin 0, none, some (.fin 10), 2⟩

theorem steady_reliable (est : Nat → ℚ) : Reliable steadyEnv (steadyOps est) steadyCfg (fun a s => s = (a, 0)) (fun a s => s.1 = a ∧ s.2 ≠ 0)
    (fun d => d.nUnits = 2) where
  generate := fun w => ⟨_, _, rfl, by simp [ExpData.new, Arr.len, steadyCfg]⟩
  update := by
    rintro a - d ⟨i, k⟩ w hd h
    refine ⟨_, _, _, rfl, ?_, by dsimp only; omega⟩
    rcases h with h | h
    · exact congrArg Prod.fst h
    · exact h.1
  estimates := by
    rintro a - ⟨i, k⟩ h
    refine ⟨.fin (est i - 3 / k), .fin (est i + 3 / k), .fin (est i), ?_, ?_, ?_, ?_, ?_⟩ <;> simp_all [steadyOps, Fl.mul]

example : ∃ bd s', uniformRun steadyEnv (steadyOps fun a => a + 1) steadyCfg none 12 (fun a => (a, 0), ()) = (.ok (some bd), s') := by
  have := C78_uniform (steady_reliable fun a => a + 1) (by simp [steadyCfg]) (l := 10) rfl (by simp [steadyCfg]) (fun a => (a, 0)) (fun a _ => .inl rfl) ()
  rwa [show ⌊(10 : ℚ)⌋₊ = 10 by norm_num] at this

example : ∃ bd s', seRun steadyEnv (steadyOps fun a => a + 1) steadyCfg none 12 (fun a => (a, 0), ()) = (.ok (some bd), s') := by
  have := C78_elimination (steady_reliable fun a => a + 1) (by simp [steadyCfg]) (l := 10) rfl (by norm_num) (by simp [steadyCfg]) (fun a => (a, 0)) (fun a _ => .inl rfl) ()
  rwa [show ⌊(10 : ℚ)⌋₊ = 10 by norm_num] at this

/-- different estimates: a result -/
example : ∃ bd s', lucbRun steadyEnv (steadyOps fun a => a + 1) steadyCfg none 12 (fun a => (a, 0), ()) = (.ok (some bd), s') := by
  have := C78_lucb_partial (steady_reliable fun a => a + 1) (by simp [steadyCfg]) (l := 10) rfl (by simp [steadyCfg]) (fun a => (a, 0)) (fun a _ => .inl rfl) ()
  rw [show ⌊(10 : ℚ)⌋₊ = 10 by norm_num] at this
  rcases this with h | ⟨s', h, -⟩
  · exact h
  · have e : (lucbRun steadyEnv (steadyOps fun a => a + 1) steadyCfg none (10 + 2) (fun a => (a, 0), ())).1.toBool = true := by decide +kernel
    rw [h] at e
    cases e

/-- equal estimates: a `ValueError` -/
example : ∃ s', lucbRun steadyEnv (steadyOps fun _ => 1) steadyCfg none 12 (fun a => (a, 0), ()) = (.error .valueError, s') :=
  C78_lucb_violated (New := fun a s => s = (a, 0)) (G := fun d => d.nUnits = 2) (v := .fin 2) ⟨(steady_reliable fun _ => 1).generate, by
    rintro a - d s w hd rfl
    refine ⟨_, _, _, .fin (1 - 3 / 2), .fin (1 + 3 / 2), .fin 1, rfl, ?_, ?_, ?_⟩ <;> simp [steadyOps, hd, Fl.mul]⟩ (by simp) (by simp [steadyCfg])
    (by decide) rfl (by decide +kernel) 11 _ (fun a _ => rfl) ()

end Bandit
end Verif
