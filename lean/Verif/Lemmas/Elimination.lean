import Verif.Spec.Elimination
import Verif.Lemmas.EndToEnd
import Verif.Lemmas.PaperSafe
import Verif.Props.Termination
import Mathlib.Data.Set.Finite.Basic
import Mathlib.Data.Set.Countable
import Mathlib.Data.List.Sublists
import Mathlib.Data.Finset.Sort

/-!
# Successive elimination on a tape
-/

set_option linter.unusedSectionVars false
set_option linter.unusedSimpArgs false

namespace Verif

namespace Py
variable {σ H R : Type} {body : H → Py σ (H ⊕ R)}

/-- one pass of a loop, if it goes on -/
def next (body : H → Py σ (H ⊕ R)) (p : H × σ) : Option (H × σ) :=
  match body p.1 p.2 with
  | (.ok (.inl h), s) => some (h, s)
  | _ => none

/-- the state of a loop before pass `n`, if it is still going on -/
def trace (body : H → Py σ (H ⊕ R)) (start : H × σ) : Nat → Option (H × σ)
  | 0 => some start
  | n + 1 => (trace body start n).bind (next body)

theorem trace_step {start : H × σ} {n : Nat} {p : H × σ} (h : trace body start (n + 1) = some p) :
    ∃ q, trace body start n = some q ∧ body q.1 q.2 = (.ok (.inl p.1), p.2) := by
  rw [trace, Option.bind_eq_some_iff] at h
  obtain ⟨q, h1, h2⟩ := h
  refine ⟨q, h1, ?_⟩
  unfold next at h2
  split at h2
  · rename_i h' s' e
    obtain rfl := Option.some.inj h2
    exact e
  · cases h2

theorem loop_trace {start : H × σ} (hok : ∀ n p, trace body start n = some p → ∃ x s', body p.1 p.2 = (.ok x, s')) (fuel : Nat) :
    ∀ n p, trace body start n = some p → ∃ o s', Py.loop body fuel p.1 p.2 = (.ok o, s') ∧
      (o = none → ∃ h, trace body start (n + fuel) = some (h, s')) := by
  induction fuel with
  | zero => exact fun n p hp => ⟨none, p.2, rfl, fun _ => ⟨p.1, hp⟩⟩
  | succ fuel ih =>
    intro n p hp
    obtain ⟨x, s1, hx⟩ := hok n p hp
    unfold Py.loop
    rw [bind_ok hx]
    cases x with
    | inr r => exact ⟨some r, s1, rfl, fun h => by cases h⟩
    | inl h' =>
      have hn : trace body start (n + 1) = some (h', s1) := by
        rw [trace, hp, Option.bind_some, next, hx]
      obtain ⟨o, s', h1, h2⟩ := ih (n + 1) (h', s1) hn
      exact ⟨o, s', h1, fun ho => by
        obtain ⟨h, e⟩ := h2 ho
        exact ⟨h, by rw [← e]; congr 1; omega⟩⟩

end Py

namespace Bandit
open Arm Filter Topology
variable {I E V : Type} [DecidableEq I]

/-! ### patterns of candidate lists -/

/-- the number of updates before round `n` -/
def offset (c : ℕ → List I) : ℕ → ℕ
  | 0 => 0
  | n + 1 => offset c n + (c n).length

/-- the number of the update of arm `a` in round `n` (rounds in which `a` is no candidate are given different numbers, too) -/
def updateNo (c : ℕ → List I) (a : I) (n : ℕ) : ℕ := offset c n + if a ∈ c n then (c n).idxOf a else n

theorem updateNo_strictMono {c : ℕ → List I} {a : I} (h : ∀ n, a ∈ c (n + 1) → a ∈ c n) : StrictMono (updateNo c a) := by
  refine strictMono_nat_of_lt_succ fun n => ?_
  unfold updateNo
  by_cases h1 : a ∈ c n
  · have := List.idxOf_lt_length_iff.2 h1
    simp only [offset, if_pos h1]
    omega
  · have h2 : a ∉ c (n + 1) := fun h2 => h1 (h n h2)
    simp only [offset, if_neg h1, if_neg h2]
    omega

/-- the number of the `i`-th unit that arm `a` sees -/
def unitNo (c : ℕ → List I) (m : ℕ) (a : I) (i : ℕ) : ℕ := updateNo c a (i / m) * m + i % m

theorem unitNo_injective {c : ℕ → List I} {a : I} (h : ∀ n, a ∈ c (n + 1) → a ∈ c n) {m : ℕ} (hm : 0 < m) : Function.Injective (unitNo c m a) := by
  intro i j hij
  unfold unitNo at hij
  have hi := Nat.mod_lt i hm
  have hj := Nat.mod_lt j hm
  have h1 : updateNo c a (i / m) = updateNo c a (j / m) := by
    have e1 : (updateNo c a (i / m) * m + i % m) / m = updateNo c a (i / m) := by
      rw [Nat.mul_comm, Nat.mul_add_div hm, Nat.div_eq_of_lt hi, Nat.add_zero]
    have e2 : (updateNo c a (j / m) * m + j % m) / m = updateNo c a (j / m) := by
      rw [Nat.mul_comm, Nat.mul_add_div hm, Nat.div_eq_of_lt hj, Nat.add_zero]
    rw [← e1, ← e2, hij]
  have h2 : i % m = j % m := by
    rw [h1] at hij; omega
  rw [← Nat.div_add_mod i m, ← Nat.div_add_mod j m, (updateNo_strictMono h).injective h1, h2]

theorem unitNo_block (c : ℕ → List I) {m : ℕ} (a : I) (n : ℕ) {i : ℕ} (hi : i < m) : unitNo c m a (n * m + i) = updateNo c a n * m + i := by
  have hm : 0 < m := by omega
  unfold unitNo
  rw [Nat.mul_comm n m, Nat.mul_add_div hm, Nat.div_eq_of_lt hi, Nat.add_zero, Nat.mul_add_mod, Nat.mod_eq_of_lt hi]

/-- the patterns: sublists of the arms, at last always the same one -/
def patterns (arms : List I) : Set (ℕ → List I) := {c | (∀ n, (c n).Sublist arms) ∧ ∃ N, ∀ n, N ≤ n → c n = c N}

theorem patterns_countable (arms : List I) : (patterns arms).Countable := by
  have hsub : patterns arms ⊆ ⋃ N : ℕ, {c : ℕ → List I | (∀ n, (c n).Sublist arms) ∧ ∀ n, N ≤ n → c n = c N} := by
    rintro c ⟨h1, N, h2⟩
    exact Set.mem_iUnion.2 ⟨N, h1, h2⟩
  refine Set.Countable.mono hsub (Set.countable_iUnion fun N => Set.Finite.countable ?_)
  have hfin : {g : Fin (N + 1) → List I | ∀ i, g i ∈ {l : List I | l.Sublist arms}}.Finite := by
    refine Set.Finite.pi' fun _ => ?_
    refine (List.finite_toSet arms.sublists).subset fun l hl => ?_
    exact List.mem_sublists.2 hl
  refine Set.Finite.of_injOn (f := fun (c : ℕ → List I) (i : Fin (N + 1)) => c i) ?_ ?_ hfin
  · intro c hc i
    exact hc.1 _
  intro c hc d hd h
  funext n
  by_cases hn : n ≤ N
  · exact congrFun h ⟨n, by omega⟩
  · rw [hc.2 n (by omega), hd.2 n (by omega)]
    exact congrFun h ⟨N, by omega⟩

/-! ### rounds -/

variable {acfg : I → SSConfig (Cell ℝ) ℝ} {eops : I → EtaOps E (Cell ℝ) ℝ} {rng : Rng V ℝ} {cost : I → ℝ} {env : BanditEnv (Tape V) (Cell ℝ)} {cfg : BanditCfg I ℝ}

/-- What arm `a` does in a run with candidate lists `c`. -/
structure ArmRuns' (acfg : I → SSConfig (Cell ℝ) ℝ) (eops : I → EtaOps E (Cell ℝ) ℝ) (rng : Rng V ℝ) (k0 : ℕ) (c : ℕ → List I) (m : ℕ) (δ : Fl ℝ) (v0 : V) (u : ℕ → Obs ℝ) (a : I)
    (s : ℕ → ArmState E (Cell ℝ) ℝ) (ci : ℕ → Fl ℝ × Fl ℝ) : Prop where
  streams : ∃ k view, Shows (acfg a).transform k0 k view ∧
    Streams k (acfg a) (eops a) rng (fun i => view (u (unitNo c m a i))) (fun _ => m) δ s (fun n => seedAt rng m v0 (updateNo c a n)) ci
  noNan : ∀ n, (ci n).1 ≠ .nan ∧ (ci n).2 ≠ .nan ∧ (s (n + 1)).varEst ≠ some .nan

variable {k0 : ℕ} {v0 : V} {u : ℕ → Obs ℝ} {heap0 : I → I × ArmState E (Cell ℝ) ℝ} {c : ℕ → List I}

section
variable {m : ℕ} {δ : Fl ℝ} {a : I} {s : ℕ → ArmState E (Cell ℝ) ℝ} {ci : ℕ → Fl ℝ × Fl ℝ}

theorem ArmRuns'.update (h : ArmRuns' acfg eops rng k0 c m δ v0 u a s ci) (hu : ∀ i, (u i).z.length = k0) (n : ℕ) (t : Tape V)
    (ht : t.seed = seedAt rng m v0 (updateNo c a n)) :
    (ssFamily acfg eops (Tape.rng rng) cost).update (Obs.dataset k0 ((List.range m).map fun i => u (updateNo c a n * m + i))) δ ((a, s n), t) =
      (.ok (ci n), (a, s (n + 1)), { t with seed := (rng.perm m t.seed).2 }) := by
  obtain ⟨k, view, hview, hs⟩ := h.streams
  have hb : blockStart (fun _ => m) n = n * m := by simp [blockStart]
  have hd := hview.dataset ((List.range m).map fun i => u (updateNo c a n * m + i)) (by
    intro x hx
    obtain ⟨i, -, rfl⟩ := List.mem_map.1 hx
    exact hu _)
  have hstep := stream_step hs n (d := Obs.dataset k0 ((List.range m).map fun i => u (updateNo c a n * m + i))) (by
    rw [hd, List.map_map, hb]
    congr 2
    refine List.map_congr_left fun i hi => ?_
    rw [unitNo_block c a n (List.mem_range.1 hi)]
    rfl) (Tape.rng rng) t (by show (rng.perm m t.seed).1 = _; rw [ht])
  show ((ssUpdate _ _ _ _ _ _ _).1, (a, (ssUpdate _ _ _ _ _ _ _).2.1), (ssUpdate _ _ _ _ _ _ _).2.2) = _
  rw [hstep]
  rfl

theorem ArmRuns'.state (h : ArmRuns' acfg eops rng k0 c m δ v0 u a s ci) (n : ℕ) :
    (s n).numPulled = n ∧ (s (n + 1)).ci = (some (ci n).1, some (ci n).2) ∧ ∃ v, (s (n + 1)).varEst = some v ∧ v ≠ .nan := by
  obtain ⟨k, view, -, hs⟩ := h.streams
  obtain ⟨d, w1, -, hup⟩ := hs.step n
  obtain ⟨h1, h2⟩ := update_varEst hup
  obtain ⟨v, hv⟩ := Option.isSome_iff_exists.1 h2
  exact ⟨(stream_split hs n).1, h1, v, hv, fun hn => (h.noNan n).2.2 (by rw [hv, hn])⟩

end

/-- the arms before round `n` -/
def armsAt (arms : List I) (heap0 : I → I × ArmState E (Cell ℝ) ℝ) (c : ℕ → List I) (s : I → ℕ → ArmState E (Cell ℝ) ℝ) : ℕ → I → I × ArmState E (Cell ℝ) ℝ
  | 0, a => if a ∈ arms then (a, s a 0) else heap0 a
  | n + 1, a => if a ∈ c n then (a, s a (n + 1)) else armsAt arms heap0 c s n a

theorem armsAt_cand {arms : List I} {s : I → ℕ → ArmState E (Cell ℝ) ℝ} {n : ℕ} {a : I} (hc : ∀ n, (c (n + 1)).Sublist (c n)) (h0 : c 0 = arms) (ha : a ∈ c n) :
    armsAt arms heap0 c s n a = (a, s a n) := by
  cases n with
  | zero => rw [h0] at ha; simp only [armsAt, if_pos ha]
  | succ n => simp only [armsAt, if_pos ((hc n).subset ha)]

theorem armsAt_arm {arms : List I} {s : I → ℕ → ArmState E (Cell ℝ) ℝ} {a : I} (ha : a ∈ arms) (h0 : c 0 = arms) (n : ℕ) :
    ∃ j, armsAt arms heap0 c s n a = (a, s a j) ∧ (0 < n → 0 < j) := by
  induction n with
  | zero => exact ⟨0, by simp only [armsAt, if_pos ha], fun h => h⟩
  | succ n ih =>
    by_cases h : a ∈ c n
    · exact ⟨n + 1, by simp only [armsAt, if_pos h], fun _ => Nat.succ_pos _⟩
    · obtain ⟨j, h1, h2⟩ := ih
      refine ⟨j, by simp only [armsAt, if_neg h]; exact h1, fun _ => h2 ?_⟩
      rcases n with _ | n
      · rw [h0] at h; exact absurd ha h
      · exact Nat.succ_pos _

/-- the state before round `n` -/
def seState (rng : Rng V ℝ) (arms : List I) (m : ℕ) (heap0 : I → I × ArmState E (Cell ℝ) ℝ) (c : ℕ → List I) (s : I → ℕ → ArmState E (Cell ℝ) ℝ) (u : ℕ → Obs ℝ) (v0 : V) (n : ℕ) :
    (I → I × ArmState E (Cell ℝ) ℝ) × Tape V :=
  (armsAt arms heap0 c s n, ⟨u, offset c n * m, seedAt rng m v0 (offset c n)⟩)

variable {X : PyErr → (I → I × ArmState E (Cell ℝ) ℝ) × Tape V → Prop} {s : I → ℕ → ArmState E (Cell ℝ) ℝ} {ci : I → ℕ → Fl ℝ × Fl ℝ}

section
variable (hnd : cfg.arms.Nodup) (hu : ∀ i, (u i).z.length = k0) (hc : ∀ n, (c (n + 1)).Sublist (c n)) (h0 : c 0 = cfg.arms)
  (hruns : ∀ a ∈ cfg.arms, ArmRuns' acfg eops rng k0 c cfg.unitsPerRound (level cfg) v0 u a (s a) (ci a))
include hnd hu hc h0 hruns

theorem cand_sub (n : ℕ) : (c n).Sublist cfg.arms := by
  induction n with
  | zero => rw [h0]
  | succ n ih => exact (hc n).trans ih

theorem post_se_pulls (hgen : env.generate = Tape.generate k0) (n : ℕ) :
    Py.Post (fun st => st = seState rng cfg.arms cfg.unitsPerRound heap0 c s u v0 n)
      (Py.forEach (pull env (ssFamily acfg eops (Tape.rng rng) cost) cfg none) (c n) ())
      (fun _ st => st = seState rng cfg.arms cfg.unitsPerRound heap0 c s u v0 (n + 1)) X := by
  have hsub := cand_sub hnd hu hc h0 hruns n
  have hndc := hnd.sublist hsub
  refine Py.Post.weaken (Py.Post.forEach (fun pre _ st => st = ((fun a => if a ∈ pre then (a, s a (n + 1)) else armsAt cfg.arms heap0 c s n a),
      ⟨u, (offset c n + pre.length) * cfg.unitsPerRound, seedAt rng cfg.unitsPerRound v0 (offset c n + pre.length)⟩)) (c n) ?_ ()) ?_ ?_ (fun _ _ h => h)
  · rintro pre a post _ hl st rfl
    have ha : a ∈ c n := by rw [hl]; simp
    have hpre : a ∉ pre := by
      rw [hl, List.nodup_append] at hndc
      exact fun hm => hndc.2.2 a hm a (by simp) rfl
    have hno : updateNo c a n = offset c n + pre.length := by
      unfold updateNo
      rw [if_pos ha, hl, List.idxOf_append, if_neg hpre]; simp
    have hup := (hruns a (hsub.subset ha)).update (cost := cost) hu n ⟨u, (offset c n + pre.length) * cfg.unitsPerRound + cfg.unitsPerRound,
      seedAt rng cfg.unitsPerRound v0 (offset c n + pre.length)⟩ (by rw [hno])
    rw [hno] at hup
    refine Or.inl ⟨(), _, ?_, rfl⟩
    unfold pull
    rw [Py.bind_ok (a := Obs.dataset k0 ((List.range cfg.unitsPerRound).map fun i => u ((offset c n + pre.length) * cfg.unitsPerRound + i)))
      (s' := ((fun a => if a ∈ pre then (a, s a (n + 1)) else armsAt cfg.arms heap0 c s n a),
      ⟨u, (offset c n + pre.length) * cfg.unitsPerRound + cfg.unitsPerRound, seedAt rng cfg.unitsPerRound v0 (offset c n + pre.length)⟩))]
    · simp only [updateArm, if_neg hpre, armsAt_cand hc h0 ha]
      rw [hup]
      refine Prod.ext rfl (Prod.ext ?_ ?_)
      · funext b
        by_cases hb : b = a
        · subst hb; simp
        · dsimp only
          rw [Function.update_of_ne hb]; simp [hb]
      · simp only [List.length_append, List.length_singleton, ← Nat.add_assoc, seedAt_succ, Nat.add_mul, Nat.one_mul]
    · simp only [samplesFor, generate, hgen, Tape.generate]
  · rintro st rfl
    simp [seState]
  · rintro _ st rfl
    refine Prod.ext ?_ ?_
    · funext a
      simp only [seState, armsAt]
    · simp [seState, offset]

/-- the arms have values after the first round -/
theorem estimates_after (hcost : ∀ a ∈ cfg.arms, 0 < cost a) :
    HasEstimates (ssFamily acfg eops (Tape.rng rng) cost) cfg.arms fun a x => ∃ j, x = (a, s a (j + 1)) := by
  rintro a ha _ ⟨j, rfl⟩
  obtain ⟨-, hci, v, hv, hvn⟩ := (hruns a ha).state j
  obtain ⟨h1, h2, -⟩ := (hruns a ha).noNan j
  exact ⟨(ci a j).1, (ci a j).2, v, hci, hv, PaperBandits.mul_pos_ne_nan (hcost a ha) h1, PaperBandits.mul_pos_ne_nan (hcost a ha) h2, PaperBandits.mul_pos_ne_nan (hcost a ha) hvn⟩

theorem ready_after (n : ℕ) : Ready (fun a x => x = (a, s a 0)) (fun a x => ∃ j, x = (a, s a (j + 1))) cfg.arms cfg.arms
    (seState rng cfg.arms cfg.unitsPerRound heap0 c s u v0 (n + 1)) := by
  intro a ha
  obtain ⟨j, h1, h2⟩ := armsAt_arm (heap0 := heap0) (s := s) ha h0 (n + 1)
  obtain ⟨j, rfl⟩ : ∃ j', j = j' + 1 := ⟨j - 1, by have := h2 (Nat.succ_pos _); omega⟩
  exact ⟨Or.inr ⟨j, h1⟩, fun _ => ⟨j, h1⟩⟩

theorem post_se_round (hgen : env.generate = Tape.generate k0) (hcost : ∀ a ∈ cfg.arms, 0 < cost a) {L : Fl ℝ} (hL : cfg.sampleLimit = some L) (hL0 : L.lt (.fin 0) = false)
    (n : ℕ) (h : Hist I ℝ) (hn : n = 0 → h.total = 0) :
    Py.Post (fun st => st = seState rng cfg.arms cfg.unitsPerRound heap0 c s u v0 n) (seRound env (ssFamily acfg eops (Tape.rng rng) cost) cfg none (h, c n))
      (fun x st => x.isLeft = true → st = seState rng cfg.arms cfg.unitsPerRound heap0 c s u v0 (n + 1)) X := by
  have hest := estimates_after (cost := cost) hnd hu hc h0 hruns hcost
  unfold seRound
  split
  · exact Py.Post.pure fun s h hx => by cases hx
  rename_i hlen
  have hover : overLimit cfg h.total = .ok (L.lt (.fin (h.total : ℝ))) := by simp only [overLimit, hL]
  refine Py.Post.bind (Q := fun ov st => st = seState rng cfg.arms cfg.unitsPerRound heap0 c s u v0 n ∧ ov = L.lt (.fin (h.total : ℝ)))
    (Py.Post.lift hover fun st hst => ⟨hst, rfl⟩) fun ov => ?_
  split
  · rename_i ho
    rintro st ⟨rfl, hov⟩
    obtain ⟨n, rfl⟩ : ∃ n', n = n' + 1 := by
      rcases n with _ | n
      · rw [ho, hn rfl, Nat.cast_zero, hL0] at hov
        cases hov
      · exact ⟨n, rfl⟩
    obtain ⟨best, hb⟩ := lowestVarArms_ready hest (ready_after (heap0 := heap0) hnd hu hc h0 hruns n)
    refine Or.inl ⟨.inr (Hist.done h best), seState rng cfg.arms cfg.unitsPerRound heap0 c s u v0 (n + 1), ?_, fun hx => by cases hx⟩
    rw [Py.bind_ok (Py.get_apply _)]
    dsimp only
    rw [hb]
    rfl
  · refine Py.Post.bind (Q := fun _ st => st = seState rng cfg.arms cfg.unitsPerRound heap0 c s u v0 (n + 1))
      ((post_se_pulls hnd hu hc h0 hruns hgen n).weaken (fun _ h => h.1) (fun _ _ h => h) (fun _ _ h => h)) fun _ => ?_
    dsimp only
    have hready := ready_after (heap0 := heap0) (rng := rng) hnd hu hc h0 hruns n
    refine Py.Post.bind (Q := fun h' st => st = seState rng cfg.arms cfg.unitsPerRound heap0 c s u v0 (n + 1) ∧ Recorded cfg.arms h') ?_ fun h' => ?_
    · refine (Py.Post.forEach (fun pre h' st => st = seState rng cfg.arms cfg.unitsPerRound heap0 c s u v0 (n + 1) ∧ Recorded pre h') cfg.arms ?_ _).weaken
        (fun st hst => ⟨hst, fun a ha => by simp at ha⟩) (fun _ _ h => h) (fun _ _ h => h)
      rintro pre a post h1 hl st ⟨rfl, hh⟩
      have ha : a ∈ cfg.arms := by rw [hl]; simp
      obtain ⟨x, s', e1, -, e3, -⟩ := (post_record (X := fun _ _ => False) hest cfg.arms pre (fun _ => 0) a ha ha h1 hh).returns hready
      exact Or.inl ⟨x, s', e1, (record_ok e1).1, e3⟩
    · by_cases hh : Recorded cfg.arms h'
      swap
      · exact fun s hs => absurd hs.2 hh
      have hsub := cand_sub hnd hu hc h0 hruns n
      obtain ⟨next, hn1, -⟩ := eliminate_ready (h := (c n).foldl (fun h a => setLastSample cfg.unitsPerRound a h) h') (cands := c n)
        (by intro e; simp [e] at hlen) (recorded_foldl _ _ _ _ fun a ha => hh a (hsub.subset ha))
      refine Py.Post.bind (Q := fun _ st => st = seState rng cfg.arms cfg.unitsPerRound heap0 c s u v0 (n + 1)) (Py.Post.lift hn1 fun st hst => hst.1) fun nx => ?_
      split
      · exact Py.Post.pure fun s h hx => by cases hx
      · exact Py.Post.pure fun s h _ => h

end

end Bandit
end Verif
