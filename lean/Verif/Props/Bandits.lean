import Verif.Lemmas.Bandits8
import Mathlib.Algebra.Order.Floor.Semiring
import Mathlib.Algebra.Order.Ring.Rat
import Mathlib.Data.Rat.Floor

/-!
# Properties C31-C36: histories, accounting, limits, termination, stopping
-/

set_option linter.unusedSectionVars false

namespace Verif
namespace Bandit

section Demo

/-- Running example: an arm that reads its interval and estimate from a script, one line per update, and counts units. -/
def scriptOps : ArmOps (List (Fl ℚ × Fl ℚ × Fl ℚ) × Nat) Nat Int ℚ where
  update := fun d _ s => (.ok ((s.1.1.head?.map fun e => (e.1, e.2.1)).getD (.nan, .nan)),
    (if 2 ≤ s.1.1.length then s.1.1.tail else s.1.1, s.1.2 + d.nUnits), s.2 + 1)
  ci := fun s => (s.1.head?.map (·.1), s.1.head?.map (·.2.1))
  varEst := fun s => s.1.head?.map (·.2.2)
  cost := fun _ => .fin 1
  numUnits := fun s => s.2
  reset := fun s => (s.1, 0)

/-- A data set with `n` units. -/
def plainData (n : Nat) : ExpData Int :=
  ExpData.new (some (.d2 1 (List.replicate n [0]))) (some (List.replicate n 0)) (some (List.replicate n 0))

/-- Running example: the world counts the random draws. -/
def demoEnv : BanditEnv Nat Int where
  generate := fun n w => (.ok (plainData n), w + 1)
  choice := fun n h w => (⟨w % n, Nat.mod_lt _ h⟩, w + 1)
  choice2 := fun n h w => (⟨(⟨0, by omega⟩, ⟨1, by omega⟩), by simp [Fin.ext_iff]⟩, w + 1)

/-- A line of a script: finite bounds and estimate. -/
def ln (l u v : ℚ) : Fl ℚ × Fl ℚ × Fl ℚ := (.fin l, .fin u, .fin v)

/-- The scripts of three arms: arm 0 is the best one, arm 2 the worst. -/
def demoHeap : Nat → List (Fl ℚ × Fl ℚ × Fl ℚ) × Nat
  | 0 => ([ln 0 10 1, ln 0 9 1, ln 0 3 2, ln 0 2 1], 0)
  | 1 => ([ln 0 10 5, ln 1 9 5, ln 2 9 5, ln 4 8 5], 0)
  | _ => ([ln 0 10 9, ln 3 12 9, ln 5 12 9, ln 7 11 9], 0)

/-- Running example configuration. -/
def demoBandit (limit : ℚ) : BanditCfg Nat ℚ := ⟨[0, 1, 2], .fin (1 / 10), .fin 0, some (.fin (9 / 10)), some (.fin limit), 2⟩

theorem returned {I σ α : Type} {m : Except PyErr (Option (BanditData I α)) × σ} (p : BanditData I α → Bool)
    (h : (match m.1 with | .ok (some bd) => p bd | _ => false) = true) : ∃ bd s', m = (.ok (some bd), s') ∧ p bd = true := by
  obtain ⟨r, s'⟩ := m
  cases r with
  | error e => simp at h
  | ok o =>
    cases o with
    | none => simp at h
    | some bd => exact ⟨bd, s', rfl, h⟩

end Demo

variable {I S W β α : Type} [Field α] [LinearOrder α] [DecidableEq I]
variable {env : BanditEnv W β} {ops : ArmOps S W β α} {cfg : BanditCfg I α} {all : Option (ExpData β)} {fuel : Nat}
  {heap : I → S} {w : W} {bd : BanditData I α} {s' : (I → S) × W}

/-! ## C31 -/

/-- **C31** Uniform: the returned histories describe the rounds that took place; every round updates every arm. -/
theorem C31_uniform (hnd : cfg.arms.Nodup) (hr : uniformRun env ops cfg all fuel (heap, w) = (.ok (some bd), s')) :
    ∃ rs, Rounds ops heap rs s'.1 ∧ Faithful ops cfg.arms cfg.unitsPerRound rs bd ∧ rs ≠ [] ∧ ∀ r ∈ rs, r.arms = cfg.arms := by
  obtain ⟨rs, L, h⟩ := uniform_master hnd hr
  exact ⟨rs, h.ran.rounds, h.ran.faithful, h.nonempty, h.arms⟩

example : (demoBandit 100).arms.Nodup ∧ ∃ bd s', uniformRun demoEnv scriptOps (demoBandit 100) none 10 (demoHeap, 0) = (.ok (some bd), s') ∧
    (bd.cum = [6, 12, 18] ∧ bd.best = [0] ∧ bd.lcb 1 = [.fin 1, .fin 2, .fin 4] : Bool) = true :=
  ⟨by decide, returned _ (by decide +kernel)⟩

/-- **C31** LUCB: one initial round updating every arm, then rounds of two updates. -/
theorem C31_lucb (hnd : cfg.arms.Nodup) (hr : lucbRun env ops cfg all fuel (heap, w) = (.ok (some bd), s')) :
    ∃ r0 rs, Rounds ops heap (r0 :: rs) s'.1 ∧ Faithful ops cfg.arms cfg.unitsPerRound (r0 :: rs) bd ∧ r0.arms = cfg.arms ∧
      ∀ r ∈ rs, r.arms.length = 2 ∧ ∀ a ∈ r.arms, a ∈ cfg.arms := by
  obtain ⟨r0, rs, L, h⟩ := lucb_master hnd hr
  exact ⟨r0, rs, h.ran.rounds, h.ran.faithful, h.first, h.arms⟩

example : ∃ bd s', lucbRun demoEnv scriptOps (demoBandit 100) none 10 (demoHeap, 0) = (.ok (some bd), s') ∧
    (bd.cum = [6, 10, 14] ∧ bd.samples 1 = [2, 2, 2] ∧ bd.samples 2 = [2, 0, 0] : Bool) = true :=
  returned _ (by decide +kernel)

/-- **C31** Successive elimination: every round updates the remaining candidates, the first one all arms. -/
theorem C31_successive_elimination (hnd : cfg.arms.Nodup) (hr : seRun env ops cfg all fuel (heap, w) = (.ok (some bd), s')) :
    ∃ rs, Rounds ops heap rs s'.1 ∧ Faithful ops cfg.arms cfg.unitsPerRound rs bd ∧ (∀ r, rs[0]? = some r → r.arms = cfg.arms) ∧
      ∀ r ∈ rs, r.arms.Sublist cfg.arms := by
  obtain ⟨rs, h⟩ := se_master hnd hr
  refine ⟨rs, h.ran.rounds, h.ran.faithful, h.chain.first, ?_⟩
  intro r hrm
  obtain ⟨i, hi⟩ := List.mem_iff_getElem?.mp hrm
  exact h.chain.sublist i r hi

example : ∃ bd s', seRun demoEnv scriptOps (demoBandit 100) none 10 (demoHeap, 0) = (.ok (some bd), s') ∧
    (bd.cum = [6, 12, 16] ∧ bd.samples 2 = [2, 2, 0] ∧ bd.best = [0] : Bool) = true :=
  returned _ (by decide +kernel)

/-! ## C32 -/

/-- **C32** Uniform: `cum_samples[t]` is the total of `samples_by_arm` up to round `t`. -/
theorem C32_uniform (hnd : cfg.arms.Nodup) (hr : uniformRun env ops cfg all fuel (heap, w) = (.ok (some bd), s'))
    (t c : Nat) (hc : bd.cum[t]? = some c) : c = bd.sampledUpTo cfg.arms t := by
  obtain ⟨rs, L, h⟩ := uniform_master hnd hr
  rw [h.cum] at hc
  obtain ⟨ht, rfl⟩ := getElem?_range_map hc
  rw [h.ran.sampled hnd (fun r hr a ha => by rw [h.arms r hr] at ha; exact ha)]
  rw [sum_const_map _ _ (cfg.arms.length * cfg.unitsPerRound)]
  · rw [List.length_take, min_eq_left (by omega)]
  · intro r hr
    rw [h.arms r (List.mem_of_mem_take hr), hnd.dedup]

/-- **C32** Successive elimination: `cum_samples[t]` is the total of `samples_by_arm` up to round `t`. -/
theorem C32_successive_elimination (hnd : cfg.arms.Nodup) (hr : seRun env ops cfg all fuel (heap, w) = (.ok (some bd), s'))
    (t c : Nat) (hc : bd.cum[t]? = some c) : c = bd.sampledUpTo cfg.arms t := by
  obtain ⟨rs, h⟩ := se_master hnd hr
  rw [h.cum] at hc
  obtain ⟨ht, rfl⟩ := getElem?_range_map hc
  have hsub : ∀ r ∈ rs, r.arms.Sublist cfg.arms := by
    intro r hrm
    obtain ⟨i, hi⟩ := List.mem_iff_getElem?.mp hrm
    exact h.chain.sublist i r hi
  rw [h.ran.sampled hnd (fun r hr a ha => (hsub r hr).subset ha), samplesAfter]
  congr 1
  apply List.map_congr_left
  intro r hr
  rw [((hsub r (List.mem_of_mem_take hr)).nodup hnd).dedup]

example : ∃ bd s', seRun demoEnv scriptOps (demoBandit 100) none 10 (demoHeap, 0) = (.ok (some bd), s') ∧
    (bd.cum[2]? = some 16 ∧ bd.sampledUpTo [0, 1, 2] 2 = 16 : Bool) = true :=
  returned _ (by decide +kernel)

theorem two_dedup {l : List I} (h2 : l.length = 2) : l.dedup.length ≤ 2 ∧ ((∃ a b, a ≠ b ∧ a ∈ l ∧ b ∈ l) → l.dedup.length = 2) := by
  refine ⟨h2 ▸ (List.dedup_sublist l).length_le, ?_⟩
  rintro ⟨a, b, hab, ha, hb⟩
  match l, h2 with
  | [x, y], _ =>
    have : x ≠ y := by
      rintro rfl
      simp only [List.mem_cons, List.not_mem_nil, or_false, or_self] at ha hb
      exact hab (ha.trans hb.symm)
    rw [List.Nodup.dedup (by simpa using this)]
    rfl

theorem sum_take_mono {γ : Type} (l : List γ) (f g : γ → Nat) (h : ∀ a ∈ l, f a ≤ g a) : (l.map f).sum ≤ (l.map g).sum := by
  induction l with
  | nil => simp
  | cons a l ih =>
    simp only [List.map_cons, List.sum_cons]
    have := h a (by simp)
    have := ih fun b hb => h b (by simp [hb])
    omega

/-- **C32 (partial)** LUCB: `cum_samples[t]` is at least the total of `samples_by_arm`, and equal to it when every
later round sampled two different arms.  Missing: rounds in which the same arm is pulled twice. -/
theorem C32_lucb_partial (hnd : cfg.arms.Nodup) (hr : lucbRun env ops cfg all fuel (heap, w) = (.ok (some bd), s'))
    (t c : Nat) (hc : bd.cum[t]? = some c) :
    bd.sampledUpTo cfg.arms t ≤ c ∧
    (0 < cfg.unitsPerRound → (∀ k, 1 ≤ k → k ≤ t → ∃ a ∈ cfg.arms, ∃ b ∈ cfg.arms, a ≠ b ∧ (bd.samples a)[k]? = some cfg.unitsPerRound ∧
      (bd.samples b)[k]? = some cfg.unitsPerRound) → bd.sampledUpTo cfg.arms t = c) := by
  obtain ⟨r0, rs, L, h⟩ := lucb_master hnd hr
  rw [h.cum] at hc
  obtain ⟨ht, rfl⟩ := getElem?_range_map hc
  have hs : ∀ r ∈ r0 :: rs, ∀ a ∈ r.arms, a ∈ cfg.arms := by
    intro r hr a ha
    rcases List.mem_cons.mp hr with rfl | hr
    · rw [h.first] at ha; exact ha
    · exact (h.arms r hr).2 a ha
  rw [h.ran.sampled hnd hs, List.take_succ_cons, List.map_cons, List.sum_cons, h.first, hnd.dedup]
  have hconst : t * (2 * cfg.unitsPerRound) = ((rs.take t).map fun _ => 2 * cfg.unitsPerRound).sum := by
    rw [sum_const_map _ _ (2 * cfg.unitsPerRound) (by simp), List.length_take, min_eq_left (by omega)]
  rw [hconst]
  refine ⟨?_, ?_⟩
  · apply Nat.add_le_add_left
    apply sum_take_mono
    intro r hr
    exact Nat.mul_le_mul_right _ (two_dedup (h.arms r (List.mem_of_mem_take hr)).1).1
  · intro hu hd
    congr 2
    apply List.map_congr_left
    intro r hr
    obtain ⟨i, hi⟩ := List.mem_iff_getElem?.mp hr
    have hit : i < t := by
      have := (List.getElem?_eq_some_iff.mp hi).1
      simp at this; omega
    rw [List.getElem?_take_of_lt hit] at hi
    obtain ⟨a, ha, b, hb, hab, e1, e2⟩ := hd (i + 1) (by omega) (by omega)
    have hi' : (r0 :: rs)[i + 1]? = some r := hi
    have e1' := (h.ran.entry ha hi').2.2.2
    have e2' := (h.ran.entry hb hi').2.2.2
    rw [e1, Option.some.injEq] at e1'
    rw [e2, Option.some.injEq] at e2'
    have m1 : a ∈ r.arms := by by_contra hn; rw [if_neg hn] at e1'; omega
    have m2 : b ∈ r.arms := by by_contra hn; rw [if_neg hn] at e2'; omega
    rw [(two_dedup (h.arms r (List.mem_of_mem_take hr)).1).2 ⟨a, b, hab, m1, m2⟩]

example : ∃ bd s', lucbRun demoEnv scriptOps (demoBandit 100) none 10 (demoHeap, 0) = (.ok (some bd), s') ∧
    (bd.cum[2]? = some 14 ∧ bd.sampledUpTo [0, 1, 2] 2 = 14 : Bool) = true :=
  returned _ (by decide +kernel)

/-- Scripts where the arm with the lowest estimate also shares the lowest lower bound of the others. -/
def tieHeap : Nat → List (Fl ℚ × Fl ℚ × Fl ℚ) × Nat
  | 0 => ([ln 0 8 1, ln 0 8 1], 0)
  | _ => ([ln 0 9 5, ln 0 9 5], 0)

/-- **C32 (violated)** A run of LUCB with two arms and finite bounds in which the same arm is pulled twice in a round:
`cum_samples` ends at 8 although `samples_by_arm` accounts for 6 samples. -/
theorem C32_lucb_violated :
    ∃ bd s', lucbRun demoEnv scriptOps ⟨[0, 1], .fin (1 / 10), .fin 0, some (.fin (9 / 10)), some (.fin 5), 2⟩ none 10 (tieHeap, 0) =
      (.ok (some bd), s') ∧ (bd.cum = [4, 8] ∧ bd.sampledUpTo [0, 1] 1 = 6 : Bool) = true :=
  returned _ (by decide +kernel)

/-! ## C33 -/

/-- **C33** Uniform: a round follows only when the samples so far were within the limit; every round costs
`n_arms * units`. -/
theorem C33_uniform (hnd : cfg.arms.Nodup) (hr : uniformRun env ops cfg all fuel (heap, w) = (.ok (some bd), s')) :
    bd.cum[0]? = some (cfg.arms.length * cfg.unitsPerRound) ∧
    ∃ L, cfg.sampleLimit = some L ∧ ∀ t c c' : Nat, bd.cum[t]? = some c → bd.cum[t + 1]? = some c' →
      L.lt (.fin (c : α)) = false ∧ c' = c + cfg.arms.length * cfg.unitsPerRound := by
  obtain ⟨rs, L, h⟩ := uniform_master hnd hr
  refine ⟨?_, L, h.limit, ?_⟩
  · rw [h.cum, List.getElem?_map, List.getElem?_range (List.length_pos_of_ne_nil h.nonempty)]
    simp
  · intro t c c' hc hc'
    refine ⟨h.within c (getElem?_dropLast_of hc hc'), ?_⟩
    rw [h.cum] at hc hc'
    obtain ⟨-, rfl⟩ := getElem?_range_map hc
    obtain ⟨-, rfl⟩ := getElem?_range_map hc'
    rw [Nat.add_mul (t + 1) 1, Nat.one_mul]

/-- **C33** LUCB: likewise, with `2 * units` samples per round after the first. -/
theorem C33_lucb (hnd : cfg.arms.Nodup) (hr : lucbRun env ops cfg all fuel (heap, w) = (.ok (some bd), s')) :
    bd.cum[0]? = some (cfg.arms.length * cfg.unitsPerRound) ∧
    ∃ L, cfg.sampleLimit = some L ∧ ∀ t c c' : Nat, bd.cum[t]? = some c → bd.cum[t + 1]? = some c' →
      L.lt (.fin (c : α)) = false ∧ c' = c + 2 * cfg.unitsPerRound := by
  obtain ⟨r0, rs, L, h⟩ := lucb_master hnd hr
  refine ⟨?_, L, h.limit, ?_⟩
  · rw [h.cum, List.getElem?_map, List.getElem?_range (by omega)]
    simp
  · intro t c c' hc hc'
    refine ⟨h.within c (getElem?_dropLast_of hc hc'), ?_⟩
    rw [h.cum] at hc hc'
    obtain ⟨-, rfl⟩ := getElem?_range_map hc
    obtain ⟨-, rfl⟩ := getElem?_range_map hc'
    rw [Nat.add_mul t 1, Nat.one_mul, Nat.add_assoc]

/-- **C33** Successive elimination: likewise, with at most `n_arms * units` samples per round. -/
theorem C33_successive_elimination (hnd : cfg.arms.Nodup) (hr : seRun env ops cfg all fuel (heap, w) = (.ok (some bd), s')) :
    (∀ c, bd.cum[0]? = some c → c = cfg.arms.length * cfg.unitsPerRound) ∧
    ∀ t c c' : Nat, bd.cum[t]? = some c → bd.cum[t + 1]? = some c' →
      (∃ L, cfg.sampleLimit = some L ∧ L.lt (.fin (c : α)) = false) ∧ c' ≤ c + cfg.arms.length * cfg.unitsPerRound := by
  obtain ⟨rs, h⟩ := se_master hnd hr
  refine ⟨?_, ?_⟩
  · intro c hc
    rw [h.cum] at hc
    obtain ⟨ht, rfl⟩ := getElem?_range_map hc
    rcases rs with _ | ⟨r, rs⟩
    · simp at ht
    · simp [samplesAfter, h.chain.first r rfl]
  · intro t c c' hc hc'
    refine ⟨h.within c (getElem?_dropLast_of hc hc'), ?_⟩
    rw [h.cum] at hc hc'
    obtain ⟨-, rfl⟩ := getElem?_range_map hc
    obtain ⟨ht, rfl⟩ := getElem?_range_map hc'
    unfold samplesAfter
    rw [List.take_add_one, List.map_append, List.sum_append, List.getElem?_eq_getElem ht]
    apply Nat.add_le_add_left
    simp only [Option.toList_some, List.map_cons, List.map_nil, List.sum_cons, List.sum_nil, Nat.add_zero]
    exact Nat.mul_le_mul_right _ (h.chain.sublist (t + 1) _ (List.getElem?_eq_getElem ht)).length_le

section Ordered
variable [IsStrictOrderedRing α]

theorem below_limit {l : α} (cum : List Nat) (k : Nat) (hl : 0 ≤ l) (h0 : ∀ c, cum[0]? = some c → c ≤ k)
    (hstep : ∀ t c c' : Nat, cum[t]? = some c → cum[t + 1]? = some c' → (Fl.fin l).lt (.fin (c : α)) = false ∧ c' ≤ c + k)
    (c : Nat) (hc : c ∈ cum) : (c : α) ≤ l + (k : α) := by
  obtain ⟨t, ht⟩ := List.mem_iff_getElem?.mp hc
  cases t with
  | zero =>
    have : (c : α) ≤ (k : α) := by exact_mod_cast h0 c ht
    linarith
  | succ t =>
    have hlt : t < cum.length := by
      have := (List.getElem?_eq_some_iff.mp ht).1
      omega
    obtain ⟨h1, h2⟩ := hstep t _ c (List.getElem?_eq_getElem hlt) ht
    simp only [Fl.lt] at h1
    have h1' : ((cum[t] : Nat) : α) ≤ l := by simpa using h1
    have h2' : (c : α) ≤ ((cum[t] : Nat) : α) + (k : α) := by exact_mod_cast h2
    linarith

/-- **C33** The limit is exceeded by at most one round's samples (all three algorithms; the first round of LUCB, and
every round of the others, has at most `n_arms * units`). -/
theorem C33_within_one_round (hnd : cfg.arms.Nodup) {l : α} (hL : cfg.sampleLimit = some (.fin l)) (hl : 0 ≤ l) :
    (uniformRun env ops cfg all fuel (heap, w) = (.ok (some bd), s') →
      ∀ c ∈ bd.cum, (c : α) ≤ l + ((cfg.arms.length * cfg.unitsPerRound : Nat) : α)) ∧
    (lucbRun env ops cfg all fuel (heap, w) = (.ok (some bd), s') →
      ∀ c ∈ bd.cum, (c : α) ≤ l + ((max cfg.arms.length 2 * cfg.unitsPerRound : Nat) : α)) ∧
    (seRun env ops cfg all fuel (heap, w) = (.ok (some bd), s') →
      ∀ c ∈ bd.cum, (c : α) ≤ l + ((cfg.arms.length * cfg.unitsPerRound : Nat) : α)) := by
  refine ⟨?_, ?_, ?_⟩
  · intro hr
    obtain ⟨h1, L, hL', h2⟩ := C33_uniform hnd hr
    rw [hL] at hL'; cases hL'
    refine below_limit bd.cum _ hl (fun c hc => ?_) (fun t c c' hc hc' => ⟨(h2 t c c' hc hc').1, (h2 t c c' hc hc').2.le⟩)
    rw [h1] at hc; exact (Option.some.inj hc).ge
  · intro hr
    obtain ⟨h1, L, hL', h2⟩ := C33_lucb hnd hr
    rw [hL] at hL'; cases hL'
    refine below_limit bd.cum _ hl (fun c hc => ?_) (fun t c c' hc hc' => ⟨(h2 t c c' hc hc').1, ?_⟩)
    · rw [h1] at hc
      rw [← Option.some.inj hc]; exact Nat.mul_le_mul_right _ (le_max_left _ _)
    · rw [(h2 t c c' hc hc').2]
      exact Nat.add_le_add_left (Nat.mul_le_mul_right _ (le_max_right _ _)) _
  · intro hr
    obtain ⟨h1, h2⟩ := C33_successive_elimination hnd hr
    refine below_limit bd.cum _ hl (fun c hc => (h1 c hc).le) (fun t c c' hc hc' => ⟨?_, (h2 t c c' hc hc').2⟩)
    obtain ⟨L, hL', h⟩ := (h2 t c c' hc hc').1
    rw [hL] at hL'; cases hL'; exact h

/-- non-vacuity: a limit of 7 stops Uniform at 12 samples and successive elimination at 12 -/
example : (∃ bd s', uniformRun demoEnv scriptOps (demoBandit 7) none 10 (demoHeap, 0) = (.ok (some bd), s') ∧
      (bd.cum = [6, 12] ∧ bd.best = [0] : Bool) = true) ∧
    (∃ bd s', lucbRun demoEnv scriptOps (demoBandit 7) none 10 (demoHeap, 0) = (.ok (some bd), s') ∧
      (bd.cum = [6, 10] ∧ bd.best = [0] : Bool) = true) ∧
    (∃ bd s', seRun demoEnv scriptOps (demoBandit 7) none 10 (demoHeap, 0) = (.ok (some bd), s') ∧
      (bd.cum = [6, 12] ∧ bd.best = [0] : Bool) = true) :=
  ⟨returned _ (by decide +kernel), returned _ (by decide +kernel), returned _ (by decide +kernel)⟩

/-! ## C34 -/

/-- **C34** Uniform stops (returns or raises) within `N` rounds as soon as `N` rounds exceed the limit; no hypothesis on
the arms, the data or the list of arms. -/
theorem C34_uniform (env : BanditEnv W β) (ops : ArmOps S W β α) (cfg : BanditCfg I α) (all : Option (ExpData β)) {l : α}
    (hL : cfg.sampleLimit = some (.fin l)) (N : Nat) (hN : l < ((N * (cfg.arms.length * cfg.unitsPerRound) : Nat) : α)) (hN0 : 0 < N)
    (k : Nat) (s : (I → S) × W) :
    (uniformRun env ops cfg all N s).1 ≠ .ok none ∧ uniformRun env ops cfg all (N + k) s = uniformRun env ops cfg all N s := by
  have h := uniform_stops env ops cfg all hL N hN hN0 N le_rfl s
  exact ⟨h, Py.loop_more N k _ s h⟩

/-- **C34** LUCB stops within `N + 1` rounds after the first as soon as `N` of them exceed the limit. -/
theorem C34_lucb (env : BanditEnv W β) (ops : ArmOps S W β α) (cfg : BanditCfg I α) (all : Option (ExpData β)) {l : α}
    (hL : cfg.sampleLimit = some (.fin l)) (N : Nat)
    (hN : l < ((cfg.arms.length * cfg.unitsPerRound + N * (2 * cfg.unitsPerRound) : Nat) : α)) (k : Nat) (s : (I → S) × W) :
    (lucbRun env ops cfg all (N + 1) s).1 ≠ .ok none ∧
    lucbRun env ops cfg all (N + 1 + k) s = lucbRun env ops cfg all (N + 1) s := by
  have h := lucb_stops env ops cfg all hL N hN (N + 1) le_rfl s
  refine ⟨h, ?_⟩
  unfold lucbRun at h ⊢
  rw [Py.bind_apply] at h ⊢
  rw [Py.bind_apply]
  rcases hf : lucbFirst env cfg all s with ⟨r, s1⟩
  rw [hf] at h
  cases r with
  | error e => rfl
  | ok d =>
    simp only at h ⊢
    rw [Py.bind_apply] at h ⊢
    rw [Py.bind_apply]
    rcases hu : Py.forEach (updateRecord ops cfg d) cfg.arms Hist.empty s1 with ⟨r, s2⟩
    rw [hu] at h
    cases r with
    | error e => rfl
    | ok h0 => exact Py.loop_more (N + 1) k _ s2 h

/-- **C34** Successive elimination stops within `N + 1` passes as soon as `N` rounds of two arms exceed the limit. -/
theorem C34_successive_elimination (env : BanditEnv W β) (ops : ArmOps S W β α) (cfg : BanditCfg I α) (all : Option (ExpData β)) {l : α}
    (hL : cfg.sampleLimit = some (.fin l)) (N : Nat) (hN : l < ((N * (2 * cfg.unitsPerRound) : Nat) : α)) (k : Nat) (s : (I → S) × W) :
    (seRun env ops cfg all (N + 1) s).1 ≠ .ok none ∧ seRun env ops cfg all (N + 1 + k) s = seRun env ops cfg all (N + 1) s := by
  have h := se_stops env ops cfg all hL N hN (N + 1) le_rfl s
  exact ⟨h, Py.loop_more (N + 1) k _ s h⟩

/-- **C34** With at least one arm, at least one unit per round and a finite limit `l`, all three algorithms stop within
`⌊l⌋ + 2` rounds, whatever the arms report. -/
theorem C34_all [FloorRing α] (env : BanditEnv W β) (ops : ArmOps S W β α) (cfg : BanditCfg I α) (all : Option (ExpData β)) {l : α}
    (hL : cfg.sampleLimit = some (.fin l)) (ha : cfg.arms ≠ []) (hu : 1 ≤ cfg.unitsPerRound) (s : (I → S) × W) :
    (uniformRun env ops cfg all (⌊l⌋₊ + 2) s).1 ≠ .ok none ∧ (lucbRun env ops cfg all (⌊l⌋₊ + 2) s).1 ≠ .ok none ∧
    (seRun env ops cfg all (⌊l⌋₊ + 2) s).1 ≠ .ok none := by
  have hl : l < ((⌊l⌋₊ + 1 : Nat) : α) := by exact_mod_cast Nat.lt_floor_add_one l
  have hn : 1 ≤ cfg.arms.length := List.length_pos_of_ne_nil ha
  have up : ∀ m : Nat, ⌊l⌋₊ + 1 ≤ m → l < (m : α) := fun m hm => lt_of_lt_of_le hl (by exact_mod_cast hm)
  refine ⟨uniform_stops env ops cfg all hL (⌊l⌋₊ + 1) (up _ ?_) (by omega) _ (by omega) s,
    lucb_stops env ops cfg all hL (⌊l⌋₊ + 1) (up _ ?_) _ (by omega) s, se_stops env ops cfg all hL (⌊l⌋₊ + 1) (up _ ?_) _ (by omega) s⟩
  · exact Nat.le_mul_of_pos_right _ (Nat.mul_pos hn hu)
  · have : ⌊l⌋₊ + 1 ≤ (⌊l⌋₊ + 1) * (2 * cfg.unitsPerRound) := Nat.le_mul_of_pos_right _ (by omega)
    omega
  · exact Nat.le_mul_of_pos_right _ (by omega)

example : (demoBandit 7).sampleLimit = some (.fin 7) ∧ (demoBandit 7).arms ≠ [] ∧ 1 ≤ (demoBandit 7).unitsPerRound ∧
    (7 : ℚ) < ((2 * ((demoBandit 7).arms.length * (demoBandit 7).unitsPerRound) : Nat) : ℚ) := by
  refine ⟨rfl, by decide, by decide, by decide +kernel⟩

/-- The rounds are really bounded by the limit and not by the arms: arms that never separate run until the limit. -/
example : (uniformRun demoEnv scriptOps ⟨[0, 1], .fin (1 / 10), .fin 0, none, some (.fin 20), 2⟩ none 5 (tieHeap, 1)).1.toOption.isSome = true ∧
    ((uniformRun demoEnv scriptOps ⟨[0, 1], .fin (1 / 10), .fin 0, none, some (.fin 20), 2⟩ none 5 (tieHeap, 1)).1.toOption.getD none).isNone = true := by
  decide +kernel

end Ordered
end Bandit
end Verif
