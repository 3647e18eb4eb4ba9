import Verif.Spec.EndToEnd
import Verif.Lemmas.Stream
import Verif.Lemmas.Safe
import Verif.Props.Termination2

/-!
# Uniform runs in a world of recorded units
-/

set_option linter.unusedSectionVars false
set_option linter.unusedSimpArgs false

namespace Verif

namespace Py
variable {σ H R : Type} {X : PyErr → σ → Prop}

theorem Post.loop_result {body : H → Py σ (H ⊕ R)} (J : H → σ → Prop) (Q : R → σ → Prop)
    (hb : ∀ h, Post (J h) (body h) (fun x s => Sum.elim (fun h' => J h' s) (fun r => Q r s) x) X) (n : Nat) (h : H) :
    Post (J h) (Py.loop body n h) (fun o s => o.elim (∃ h', J h' s) fun r => Q r s) X := by
  induction n generalizing h with
  | zero => exact Post.pure fun s hs => ⟨h, hs⟩
  | succ n ih =>
    unfold Py.loop
    refine Post.bind (hb h) fun x => ?_
    cases x with
    | inl h' => exact ih h'
    | inr r => exact Post.pure fun s hs => hs

end Py

namespace Arm
variable {E β W : Type}

theorem update_varEst {cfg : SSConfig β ℝ} {ops : EtaOps E β ℝ} {rng : Rng W ℝ} {d : ExpData β} {δ : Fl ℝ} {s s' : ArmState E β ℝ} {w w' : W}
    {r : Fl ℝ × Fl ℝ} (h : ssUpdate cfg ops realLib rng d δ (s, w) = (.ok r, s', w')) :
    s'.ci = (some r.1, some r.2) ∧ s'.varEst.isSome = true := by
  obtain ⟨lo, hi⟩ := r
  obtain ⟨-, s1, hn, -, hest⟩ := ssUpdate_inv h
  clear h
  cases hest <;> exact ⟨rfl, rfl⟩

end Arm

namespace Bandit

theorem record_exists {I S W β α : Type} [Field α] [LinearOrder α] [DecidableEq I] {ops : ArmOps S W β α} {k : I → Nat} {a : I} {h : Hist I α} {st : (I → S) × W}
    (hv : (ops.ci (st.1 a)).1.isSome = true ∧ (ops.ci (st.1 a)).2.isSome = true ∧ (ops.varEst (st.1 a)).isSome = true) :
    ∃ h', record ops k a h st = (.ok h', st) := by
  obtain ⟨heap, w⟩ := st
  simp only [Option.isSome_iff_exists] at hv
  obtain ⟨⟨l, hl⟩, ⟨u, hu⟩, v, hv⟩ := hv
  simp only [record, hl, hu, hv, costTimes]
  exact ⟨_, rfl⟩

open Arm Filter Topology
variable {I E V : Type} [DecidableEq I] {acfg : I → SSConfig (Cell ℝ) ℝ} {eops : I → EtaOps E (Cell ℝ) ℝ} {rng : Rng V ℝ} {cost : I → ℝ}
  {env : BanditEnv (Tape V) (Cell ℝ)} {cfg : BanditCfg I ℝ}

/-- the state of the generator that shuffles after `j` updates with `m` units -/
def seedAt (rng : Rng V ℝ) (m : ℕ) (v0 : V) (j : ℕ) : V := (fun v => (rng.perm m v).2)^[j] v0

theorem seedAt_succ (m : ℕ) (v0 : V) (j : ℕ) : seedAt rng m v0 (j + 1) = (rng.perm m (seedAt rng m v0 j)).2 :=
  Function.iterate_succ_apply' _ _ _

/-- What arm `a` does in a run of the uniform algorithm with arms `arms`. -/
def ArmRuns (acfg : I → SSConfig (Cell ℝ) ℝ) (eops : I → EtaOps E (Cell ℝ) ℝ) (rng : Rng V ℝ) (k0 : ℕ) (arms : List I) (m : ℕ) (δ : Fl ℝ) (v0 : V) (u : ℕ → Obs ℝ) (a : I)
    (s : ℕ → ArmState E (Cell ℝ) ℝ) (ci : ℕ → Fl ℝ × Fl ℝ) : Prop :=
  ∃ k view, Shows (acfg a).transform k0 k view ∧
    Streams k (acfg a) (eops a) rng (fun i => view (u i)) (fun _ => m) δ s (fun n => seedAt rng m v0 (n * arms.length + arms.idxOf a)) ci

variable {k0 : ℕ} {v0 : V} {u : ℕ → Obs ℝ} {heap0 : I → I × ArmState E (Cell ℝ) ℝ} {s : I → ℕ → ArmState E (Cell ℝ) ℝ} {ci : I → ℕ → Fl ℝ × Fl ℝ}

theorem ArmRuns.update {arms : List I} {m : ℕ} {δ : Fl ℝ} {a : I} {s : ℕ → ArmState E (Cell ℝ) ℝ} {ci : ℕ → Fl ℝ × Fl ℝ}
    (h : ArmRuns acfg eops rng k0 arms m δ v0 u a s ci) (hu : ∀ i, (u i).z.length = k0) (n : ℕ) (t : Tape V)
    (ht : t.seed = seedAt rng m v0 (n * arms.length + arms.idxOf a)) :
    (ssFamily acfg eops (Tape.rng rng) cost).update (Obs.dataset k0 ((List.range m).map fun i => u (n * m + i))) δ ((a, s n), t) =
      (.ok (ci n), (a, s (n + 1)), { t with seed := (rng.perm m t.seed).2 }) := by
  obtain ⟨k, view, hview, hs⟩ := h
  have hb : blockStart (fun _ => m) n = n * m := by simp [blockStart]
  have hd := hview.dataset ((List.range m).map fun i => u (n * m + i)) (by
    intro x hx
    obtain ⟨i, -, rfl⟩ := List.mem_map.1 hx
    exact hu _)
  have hstep := stream_step hs n (d := Obs.dataset k0 ((List.range m).map fun i => u (n * m + i))) (by
    rw [hd, List.map_map, hb]; rfl) (Tape.rng rng) t (by show (rng.perm m t.seed).1 = _; rw [ht])
  show ((ssUpdate _ _ _ _ _ _ _).1, (a, (ssUpdate _ _ _ _ _ _ _).2.1), (ssUpdate _ _ _ _ _ _ _).2.2) = _
  rw [hstep]
  rfl

theorem ArmRuns.state {arms : List I} {m : ℕ} {δ : Fl ℝ} {a : I} {s : ℕ → ArmState E (Cell ℝ) ℝ} {ci : ℕ → Fl ℝ × Fl ℝ}
    (h : ArmRuns acfg eops rng k0 arms m δ v0 u a s ci) (n : ℕ) :
    (s n).numPulled = n ∧ (s (n + 1)).ci = (some (ci n).1, some (ci n).2) ∧ (s (n + 1)).varEst.isSome = true := by
  obtain ⟨k, view, -, hs⟩ := h
  obtain ⟨d, w1, -, hup⟩ := hs.step n
  exact ⟨(stream_split hs n).1, update_varEst hup⟩

/-- the arms after `n` rounds -/
def heapAt (arms : List I) (heap0 : I → I × ArmState E (Cell ℝ) ℝ) (s : I → ℕ → ArmState E (Cell ℝ) ℝ) (n : ℕ) : I → I × ArmState E (Cell ℝ) ℝ :=
  fun a => if a ∈ arms then (a, s a n) else heap0 a

/-- the state after `n` rounds -/
def stateAt (rng : Rng V ℝ) (arms : List I) (m : ℕ) (heap0 : I → I × ArmState E (Cell ℝ) ℝ) (s : I → ℕ → ArmState E (Cell ℝ) ℝ) (u : ℕ → Obs ℝ) (v0 : V) (n : ℕ) :
    (I → I × ArmState E (Cell ℝ) ℝ) × Tape V :=
  (heapAt arms heap0 s n, ⟨u, n * m, seedAt rng m v0 (n * arms.length)⟩)

variable {X : PyErr → (I → I × ArmState E (Cell ℝ) ℝ) × Tape V → Prop}

section
variable (hnd : cfg.arms.Nodup) (hu : ∀ i, (u i).z.length = k0)
  (hruns : ∀ a ∈ cfg.arms, ArmRuns acfg eops rng k0 cfg.arms cfg.unitsPerRound (level cfg) v0 u a (s a) (ci a))
include hnd hu hruns

theorem post_uniform_updates (n : ℕ) (h : Hist I ℝ) :
    Py.Post (fun st => st = (heapAt cfg.arms heap0 s n, ⟨u, (n + 1) * cfg.unitsPerRound, seedAt rng cfg.unitsPerRound v0 (n * cfg.arms.length)⟩))
      (Py.forEach (updateRecord (ssFamily acfg eops (Tape.rng rng) cost) cfg
        (Obs.dataset k0 ((List.range cfg.unitsPerRound).map fun i => u (n * cfg.unitsPerRound + i)))) cfg.arms h)
      (fun h' st => st = stateAt rng cfg.arms cfg.unitsPerRound heap0 s u v0 (n + 1) ∧ h'.cum = h.cum) X := by
  refine Py.Post.weaken (Py.Post.forEach (fun pre h' st => st = ((fun a => if a ∈ pre then (a, s a (n + 1)) else heapAt cfg.arms heap0 s n a),
      ⟨u, (n + 1) * cfg.unitsPerRound, seedAt rng cfg.unitsPerRound v0 (n * cfg.arms.length + pre.length)⟩) ∧ h'.cum = h.cum) cfg.arms ?_ h) ?_ ?_ (fun _ _ h => h)
  · rintro pre a post h' hl st ⟨rfl, hc⟩
    have ha : a ∈ cfg.arms := by rw [hl]; simp
    have hpre : a ∉ pre := by
      rw [hl, List.nodup_append] at hnd
      exact fun hm => hnd.2.2 a hm a (by simp) rfl
    have hidx : cfg.arms.idxOf a = pre.length := by
      rw [hl, List.idxOf_append, if_neg hpre]; simp
    have hup := (hruns a ha).update (cost := cost) hu n ⟨u, (n + 1) * cfg.unitsPerRound, seedAt rng cfg.unitsPerRound v0 (n * cfg.arms.length + pre.length)⟩ (by rw [hidx])
    obtain ⟨-, hci, hv⟩ := (hruns a ha).state n
    obtain ⟨v, hv⟩ := Option.isSome_iff_exists.1 hv
    let st' : (I → I × ArmState E (Cell ℝ) ℝ) × Tape V := ((fun b => if b ∈ pre ++ [a] then (b, s b (n + 1)) else heapAt cfg.arms heap0 s n b),
        ⟨u, (n + 1) * cfg.unitsPerRound, seedAt rng cfg.unitsPerRound v0 (n * cfg.arms.length + (pre ++ [a]).length)⟩)
    obtain ⟨hh, h1, h2⟩ : ∃ hh, record (ssFamily acfg eops (Tape.rng rng) cost) (fun _ => cfg.unitsPerRound) a h' st' = (.ok hh, st') ∧ hh.cum = h'.cum := by
      obtain ⟨hh, hr⟩ := record_exists (ops := ssFamily acfg eops (Tape.rng rng) cost) (k := fun _ => cfg.unitsPerRound) (a := a) (h := h') (st := st') (by
        simp only [st', ssFamily, ArmOps.family, ssArmOps, List.mem_append, List.mem_singleton, or_true, if_true, hci, hv]
        simp)
      exact ⟨hh, hr, (record_ok hr).2.2.2.1⟩
    refine Or.inl ⟨hh, st', ?_, rfl, h2.trans hc⟩
    unfold updateRecord
    rw [Py.bind_ok (a := ()) (s' := st')]
    · exact h1
    · simp only [updateArm, if_neg hpre, heapAt, if_pos ha]
      rw [hup]
      refine Prod.ext rfl (Prod.ext ?_ ?_)
      · funext b
        by_cases hb : b = a
        · subst hb; simp [st']
        · dsimp only
          rw [Function.update_of_ne hb]; simp [hb, st', heapAt]
      · simp only [st', List.length_append, List.length_singleton, ← Nat.add_assoc, seedAt_succ]
  · rintro st rfl
    simp
  · rintro h' st ⟨rfl, hc⟩
    refine ⟨Prod.ext ?_ ?_, hc⟩
    · funext a
      simp only [stateAt, heapAt]
      split <;> rfl
    · simp [stateAt, Nat.add_mul]

/-- A run of the uniform algorithm on a tape: while it goes on, the arms are those of the streams; no exception is raised; the answer is computed from the arms
of the streams. -/
theorem post_uniform_tape (hgen : env.generate = Tape.generate k0) (h2 : 2 ≤ cfg.arms.length) {lim : Fl ℝ} (hlim : cfg.sampleLimit = some lim) (fuel : ℕ) :
    Py.Post (fun st => st = stateAt rng cfg.arms cfg.unitsPerRound heap0 s u v0 0)
      (uniformRun env (ssFamily acfg eops (Tape.rng rng) cost) cfg none fuel)
      (fun o st => o.elim (∃ n, st = stateAt rng cfg.arms cfg.unitsPerRound heap0 s u v0 n) fun r => ∃ n, r.cum.length = n + 1 ∧
        st = stateAt rng cfg.arms cfg.unitsPerRound heap0 s u v0 (n + 1) ∧
        (lowestVarArms (ssFamily acfg eops (Tape.rng rng) cost) cfg (heapAt cfg.arms heap0 s (n + 1)) = .ok r.best ∨
          checkEnd (ssFamily acfg eops (Tape.rng rng) cost) cfg (heapAt cfg.arms heap0 s (n + 1)) = .ok (true, r.best))) X := by
  unfold uniformRun
  refine Py.Post.weaken (Py.Post.loop_result (fun h st => st = stateAt rng cfg.arms cfg.unitsPerRound heap0 s u v0 h.cum.length)
      (fun r st => ∃ n, r.cum.length = n + 1 ∧ st = stateAt rng cfg.arms cfg.unitsPerRound heap0 s u v0 (n + 1) ∧
        (lowestVarArms (ssFamily acfg eops (Tape.rng rng) cost) cfg (heapAt cfg.arms heap0 s (n + 1)) = .ok r.best ∨
          checkEnd (ssFamily acfg eops (Tape.rng rng) cost) cfg (heapAt cfg.arms heap0 s (n + 1)) = .ok (true, r.best))) ?_ fuel Hist.empty)
    (fun st hst => hst) ?_ (fun _ _ h => h)
  rotate_left
  · rintro (_ | r) st h
    · obtain ⟨h', h⟩ := h
      exact ⟨_, h⟩
    · exact h
  intro h
  generalize hn : h.cum.length = n
  unfold uniformRound uniformSamples
  refine Py.Post.bind (Q := fun d st => st = (heapAt cfg.arms heap0 s n, ⟨u, (n + 1) * cfg.unitsPerRound, seedAt rng cfg.unitsPerRound v0 (n * cfg.arms.length)⟩) ∧
      d = Obs.dataset k0 ((List.range cfg.unitsPerRound).map fun i => u (n * cfg.unitsPerRound + i))) ?_ fun d => ?_
  · rintro st rfl
    refine Or.inl ⟨Obs.dataset k0 ((List.range cfg.unitsPerRound).map fun i => u (n * cfg.unitsPerRound + i)), _, ?_, rfl, rfl⟩
    simp only [generate, hgen, Tape.generate, stateAt, Nat.add_mul, Nat.one_mul]
  intro st hst
  obtain ⟨rfl, rfl⟩ := hst
  refine Py.Post.bind (post_uniform_updates hnd hu hruns n h) (fun h' => ?_) _ rfl
  intro st hst
  obtain ⟨rfl, hc⟩ := hst
  simp only [stateAt]
  have hvals : ∀ a ∈ cfg.arms, ((ssFamily acfg eops (Tape.rng rng) cost).ci (heapAt cfg.arms heap0 s (n + 1) a)).1.isSome = true ∧
      ((ssFamily acfg eops (Tape.rng rng) cost).ci (heapAt cfg.arms heap0 s (n + 1) a)).2.isSome = true ∧
      ((ssFamily acfg eops (Tape.rng rng) cost).varEst (heapAt cfg.arms heap0 s (n + 1) a)).isSome = true := by
    intro a ha
    obtain ⟨-, hci, hv⟩ := (hruns a ha).state n
    simp only [ssFamily, ArmOps.family, ssArmOps, heapAt, if_pos ha, hci, hv]
    simp
  have hcb := collectBounds_of hvals
  have hlen : (addSamples (cfg.arms.length * cfg.unitsPerRound) h').cum.length = n + 1 := by
    simp [addSamples, hc, hn]
  generalize addSamples (cfg.arms.length * cfg.unitsPerRound) h' = g at hlen
  have hover : ∃ b, overLimit cfg g.total = .ok b := by
    simp only [overLimit, hlim]; exact ⟨_, rfl⟩
  obtain ⟨ov, hover⟩ := hover
  have hget : ∀ st : (I → I × ArmState E (Cell ℝ) ℝ) × Tape V, Py.get st = (.ok st, st) := fun _ => rfl
  have hlift : ∀ {A : Type} {x : Except PyErr A} {a : A} (st : (I → I × ArmState E (Cell ℝ) ℝ) × Tape V), x = .ok a → Py.lift x st = (.ok a, st) := by
    rintro A x a st rfl; rfl
  rw [Py.bind_ok (hlift _ hover), Py.bind_ok (hget _)]
  dsimp only
  split
  · obtain ⟨best, hbest⟩ : ∃ best, lowestVarArms (ssFamily acfg eops (Tape.rng rng) cost) cfg (heapAt cfg.arms heap0 s (n + 1)) = .ok best := by
      unfold lowestVarArms
      rw [hcb]
      simp only [Bind.bind, Except.bind, pure, Except.pure]
      generalize cfg.arms.map (varV (ssFamily acfg eops (Tape.rng rng) cost) (heapAt cfg.arms heap0 s (n + 1))) = vs
      cases vs with
      | nil => exact ⟨_, rfl⟩
      | cons v vs =>
        obtain ⟨m, hm⟩ := Fl.pyMin_exists (l := v :: vs) (by simp)
        simp only [minMask, hm, Bind.bind, Except.bind, pure, Except.pure]
        exact ⟨_, rfl⟩
    rw [Py.bind_ok (hlift _ hbest)]
    exact Or.inl ⟨_, _, rfl, n, hlen, rfl, Or.inl hbest⟩
  · obtain ⟨⟨ends, best⟩, hbest⟩ : ∃ r, checkEnd (ssFamily acfg eops (Tape.rng rng) cost) cfg (heapAt cfg.arms heap0 s (n + 1)) = .ok r := by
      unfold checkEnd
      rw [hcb]
      exact endCondition_ready _ _ _ _ _ h2 (by simp) (by simp) (by simp)
    rw [Py.bind_ok (hlift _ hbest)]
    dsimp only
    split
    · rename_i he
      subst he
      exact Or.inl ⟨_, _, rfl, n, hlen, rfl, Or.inr hbest⟩
    · refine Or.inl ⟨_, _, rfl, ?_⟩
      show _ = _
      rw [hlen]

end

/-- the values of an arm whose estimates and intervals converge settle -/
theorem settled_of_intervals {a : I} {s : ℕ → ArmState E (Cell ℝ) ℝ} {ci : ℕ → Fl ℝ × Fl ℝ} (hst : ∀ n, (s (n + 1)).ci = (some (ci n).1, some (ci n).2))
    {θ v : ℝ} (he : EstimatesConverge s θ v) (hi : IntervalsConverge ci v) {e : ℝ} (hpos : 0 < e) :
    ∃ M, ∀ n, M ≤ n → Settled (ssFamily acfg eops (Tape.rng rng) cost) (a, s n) (cost a * v) e := by
  obtain ⟨q0, q, hq, -, hqv⟩ := he
  obtain ⟨l, r, hlr, hl, hr⟩ := hi
  have near : ∀ {f : ℕ → ℝ}, Tendsto f atTop (𝓝 v) → ∀ᶠ n in atTop, |cost a * f n - cost a * v| ≤ e := by
    intro f hf
    filter_upwards [Metric.tendsto_nhds.mp (hf.const_mul (cost a)) e hpos] with n hn
    rw [Real.dist_eq] at hn
    exact hn.le
  have hsh : Tendsto (fun n : ℕ => n + 1) atTop atTop := tendsto_add_atTop_nat 1
  have key : ∀ᶠ n in atTop, Settled (ssFamily acfg eops (Tape.rng rng) cost) (a, s (n + 1)) (cost a * v) e := by
    filter_upwards [hsh.eventually hq, hlr, near hl, near hr, hsh.eventually (near hqv)] with n h1 h2 h3 h4 h5
    have hci := hst n
    refine ⟨cost a * l n, cost a * r n, cost a * q (n + 1), ?_, ?_, ?_, h3, h4, h5⟩
    · show ((s (n + 1)).ci.1.map (Fl.fin (cost a)).mul) = _
      rw [hci, h2]; rfl
    · show ((s (n + 1)).ci.2.map (Fl.fin (cost a)).mul) = _
      rw [hci, h2]; rfl
    · show ((s (n + 1)).varEst.map (Fl.fin (cost a)).mul) = _
      rw [h1.2]; rfl
  obtain ⟨M, hM⟩ := eventually_atTop.1 key
  refine ⟨M + 1, fun n hn => ?_⟩
  obtain ⟨n, rfl⟩ : ∃ n', n = n' + 1 := ⟨n - 1, by omega⟩
  exact hM n (by omega)

/-- the values of an arm whose stream converges settle -/
theorem settled_of_converge {arms : List I} {m : ℕ} {δ : Fl ℝ} {a : I} {s : ℕ → ArmState E (Cell ℝ) ℝ} {ci : ℕ → Fl ℝ × Fl ℝ}
    (h : ArmRuns acfg eops rng k0 arms m δ v0 u a s ci) {θ v : ℝ} (he : EstimatesConverge s θ v) (hi : IntervalsConverge ci v) {e : ℝ} (hpos : 0 < e) :
    ∃ M, ∀ n, M ≤ n → Settled (ssFamily acfg eops (Tape.rng rng) cost) (a, s n) (cost a * v) e :=
  settled_of_intervals (fun n => (h.state n).2.1) he hi hpos

end Bandit
end Verif
