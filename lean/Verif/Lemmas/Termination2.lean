import Verif.Lemmas.Termination
import Verif.Model.BanditArms
import Verif.Spec.Follows
import Verif.Props.ChiSquare

/-!
# Runs with sample-splitting arms
-/

set_option linter.unusedSectionVars false
set_option linter.unusedSimpArgs false

namespace Verif

namespace Py
variable {σ H R : Type}

/-- invariant rule for loops that are still running -/
theorem loop_none {body : H → Py σ (H ⊕ R)} (Inv : H → σ → Prop)
    (step : ∀ h s h' s', Inv h s → body h s = (.ok (.inl h'), s') → Inv h' s')
    (n : Nat) (h : H) (s : σ) (hi : Inv h s) (s' : σ) (hr : Py.loop body n h s = (.ok none, s')) : ∃ h', Inv h' s' := by
  induction n generalizing h s with
  | zero =>
    simp only [Py.loop, pure_apply, Prod.mk.injEq, true_and] at hr
    exact ⟨h, hr ▸ hi⟩
  | succ n ih =>
    unfold Py.loop at hr
    obtain ⟨x, s1, h1, h2⟩ := Arm.bind_inv hr
    cases x with
    | inl h' => exact ih h' s1 (step _ _ _ _ hi h1) h2
    | inr r' => simp [pure_apply] at h2

end Py

namespace Bandit
section
variable {I S W β α : Type} [Field α] [LinearOrder α] [IsStrictOrderedRing α] [DecidableEq I]
variable {env : BanditEnv W β} {ops : ArmOps S W β α} {cfg : BanditCfg I α} {all : Option (ExpData β)}

/-- arm `a` is in its state of the heap `h0`, or was left there by an update at level `δ` of a state with the property `Q a` -/
def Since (ops : ArmOps S W β α) (δ : Fl α) (Q : I → S → Prop) (h0 h : I → S) : Prop :=
  ∀ a, Q a (h a) ∧ (h a = h0 a ∨ ∃ d s w r w', Q a s ∧ ops.update d δ (s, w) = (.ok r, h a, w'))

theorem Since.pulls {δ : Fl α} {Q : I → S → Prop} (hQ : ∀ a d s w r s' w', Q a s → ops.update d δ (s, w) = (.ok r, s', w') → Q a s')
    {h0 h h' : I → S} {ps : List (PullRec I β α)} (hp : Pulls ops ps h h') (hl : ∀ p ∈ ps, p.level = δ) (hs : Since ops δ Q h0 h) :
    Since ops δ Q h0 h' := by
  induction hp with
  | nil h => exact hs
  | @cons p ps h h' w w' r s' h1 h2 ih =>
    rw [hl p (by simp)] at h1
    refine ih (fun p hp => hl p (by simp [hp])) fun a => ?_
    by_cases ha : a = p.arm
    · subst ha
      rw [Function.update_self]
      exact ⟨hQ _ _ _ _ _ _ _ (hs p.arm).1 h1, Or.inr ⟨p.data, h p.arm, w, r, w', (hs p.arm).1, h1⟩⟩
    · rw [Function.update_of_ne ha]
      exact hs a

theorem since_run (hnd : cfg.arms.Nodup) {Q : I → S → Prop}
    (hQ : ∀ a d s w r s' w', Q a s → ops.update d (level cfg) (s, w) = (.ok r, s', w') → Q a s') {heap : I → S} (h0 : ∀ a, Q a (heap a)) {w0 : W}
    (run : Nat → Py ((I → S) × W) (Option (BanditData I α)))
    (hrun : run ∈ [uniformRun env ops cfg all, lucbRun env ops cfg all, seRun env ops cfg all]) {n : Nat} {s' : (I → S) × W}
    (hr : run n (heap, w0) = (.ok none, s')) : Since ops (level cfg) Q heap s'.1 := by
  have hstart : Since ops (level cfg) Q heap heap := fun a => ⟨h0 a, Or.inl rfl⟩
  simp only [List.mem_cons, List.not_mem_nil, or_false] at hrun
  rcases hrun with rfl | rfl | rfl
  · obtain ⟨-, h⟩ := Py.loop_none (fun _ s => Since ops (level cfg) Q heap s.1) (fun h s h' s' hi hb => by
      obtain ⟨ps, -, h1, h2, -⟩ := uniform_step hnd hb
      exact hi.pulls hQ h2 h1) n _ _ hstart _ hr
    exact h
  · unfold lucbRun at hr
    obtain ⟨d, s1, e1, hr⟩ := Arm.bind_inv hr
    obtain ⟨h1, s2, e2, hr⟩ := Arm.bind_inv hr
    obtain ⟨f1, -⟩ := updateRecord_forEach hnd e2
    rw [lucbFirst_ok e1] at f1
    obtain ⟨-, h⟩ := Py.loop_none (fun _ s => Since ops (level cfg) Q heap s.1) (fun h s h' s' hi hb => by
      obtain ⟨-, -, -, ps, -, h1, h2, -⟩ := lucb_step hnd hb
      exact hi.pulls hQ h2 h1) n _ _ (hstart.pulls hQ f1 (by simp +contextual)) _ hr
    exact h
  · obtain ⟨-, h, -⟩ := Py.loop_none (fun st s => Since ops (level cfg) Q heap s.1 ∧ st.2.Sublist cfg.arms) (fun st s st' s' hi hb => by
      obtain ⟨-, ps, h0, h1, h2, -, m, -, -, h3⟩ := se_step hnd hi.2 hb
      refine ⟨hi.1.pulls hQ h2 h1, ?_⟩
      rw [h3, RoundRec.arms, h0]
      exact List.filter_sublist.trans hi.2) n _ _ ⟨hstart, List.Sublist.refl _⟩ _ hr
    exact h

end

end Bandit

namespace Arm
open MeasureTheory ProbabilityTheory Filter Topology
variable {E β W : Type}

/-- bounds and estimate of a finished update -/
theorem update_fields {cfg : SSConfig β ℝ} {ops : EtaOps E β ℝ} {rng : Rng W ℝ} {d : ExpData β} {δ : Fl ℝ} {s s' : ArmState E β ℝ} {w w' : W}
    {lo hi : Fl ℝ} (h : ssUpdate cfg ops realLib rng d δ (s, w) = (.ok (lo, hi), s', w')) :
    s'.ci = (some lo, some hi) ∧ s'.numPulled = s.numPulled + 1 ∧ cfg.alg ≠ .other ∨
    s'.ci = (some lo, some hi) ∧ s'.numPulled = s.numPulled + 1 ∧ ops.hasEnough s'.eta = .ok false := by
  obtain ⟨-, s1, hn, -, hest⟩ := ssUpdate_inv h
  clear h
  cases hest with
  | few l f0 e1 a b c d => exact Or.inr ⟨rfl, hn, d⟩
  | enough l' f0 e1 f1' sc1 e2 sc2 e3 lo hi e4 a b c d e f g hnan hi' =>
    refine Or.inl ⟨rfl, hn, ?_⟩
    cases hi' <;> simp_all

/-- Let an arm follow observations whose mean, variance and variance of squared deviations converge.  Then bounds and estimate
of states that were updated sufficiently often are close to the limit of the variance. -/
theorem follows_settles {cfg : SSConfig β ℝ} {ops : EtaOps E β ℝ} (hrep : ScoreRepeatable ops) {rng : Rng W ℝ} {δ : ℝ}
    {ys : ℕ → List ℝ} (hys : ∀ n, (ys n).length = n) {m v q : ℝ} (hm : Tendsto (fun n => pmean (ys n)) atTop (𝓝 m))
    (hv : Tendsto (fun n => pvar (ys n)) atTop (𝓝 v)) (hq : Tendsto (fun n => pvar (sqDevs (ys n))) atTop (𝓝 q)) (hv0 : 0 ≤ v)
    {states : ArmState E β ℝ → Prop} (hf : Follows cfg ops δ states ys) {e : ℝ} (he : 0 < e) :
    ∃ M, ∀ s', states s' → M ≤ s'.numPulled → (∃ d s w r w', ssUpdate cfg ops realLib rng d (.fin δ) (s, w) = (.ok r, s', w')) →
      ∃ l u x, s'.ci = (some (.fin l), some (.fin u)) ∧ s'.varEst = some (.fin x) ∧ |l - v| ≤ e ∧ |u - v| ≤ e ∧ |x - v| ≤ e := by
  by_contra hcon
  push Not at hcon
  choose S hst hM hup hbad using hcon
  choose d s w r w' hup using hup
  obtain ⟨⟨ε, N, hε, hN, hev⟩, hfs⟩ := hf
  have hpos : ∀ n, 1 ≤ (S n).numPulled := fun n => by
    rcases update_fields (hup n) with h | h <;> omega
  choose xs hxs hcl using fun n => hev (S n) (hst n) (hpos n)
  have hK : Tendsto (fun n => (S n).numPulled) atTop atTop := tendsto_atTop_mono hM tendsto_id
  have hN' : Tendsto (fun n => N (S n).numPulled) atTop atTop := tendsto_atTop_mono (fun n => hN _) hK
  have hε' := hε.comp hK
  have hci : ∀ n, (S n).ci = (some (r n).1, some (r n).2) ∧ cfg.alg ≠ .other ∧ (S n).numPulled = (s n).numPulled + 1 := by
    intro n
    rcases update_fields (hup n) with h | h
    · exact ⟨h.1, h.2.2, h.2.1⟩
    · obtain ⟨-, -, -, -, -, h4, -⟩ := hxs n
      rw [h.2.2] at h4
      cases h4
  have hest : ∃ l u : ℕ → ℝ, (∀ᶠ n in atTop, (r n).1 = .fin (l n) ∧ (r n).2 = .fin (u n)) ∧ Tendsto l atTop (𝓝 v) ∧ Tendsto u atTop (𝓝 v) := by
    rcases halg : cfg.alg with _ | _ | _ | _
    · exact chi2_path hys hm hv halg hrep hN' hup hxs hε' fun n => (hcl n).two
    · obtain ⟨l, u, h1, h2⟩ := clt_path hys hm hv hq hv0 halg hrep (k := fun n => (s n).numPulled) hN'
        (fun n => by rw [← (hci n).2.2]; exact hN _) (fun _ => rfl) hup hxs hε' hcl
      exact ⟨l, u, Eventually.of_forall h1, h2⟩
    · obtain ⟨⟨g, τ, b, hnum⟩, ew, hew, hw⟩ := hfs halg
      exact fs_path hys hm hv hv0 hnum hrep hN' hup hxs hε' (fun n => (hcl n).two) (fun n => hw _ (hst n) (hpos n)) (hew.comp hK)
    · exact absurd halg (hci 0).2.1
  obtain ⟨l, u, hlu, hl, hu⟩ := hest
  obtain ⟨-, hx⟩ := pvar_tendsto hN' hys hm hv hε' fun n => (hcl n).two
  have near : ∀ {f : ℕ → ℝ}, Tendsto f atTop (𝓝 v) → ∀ᶠ n in atTop, |f n - v| ≤ e := by
    intro f hf
    filter_upwards [Metric.tendsto_nhds.mp hf e he] with n hn
    rw [Real.dist_eq] at hn
    exact hn.le
  obtain ⟨n, ⟨e1, e2⟩, h1, h2, h3⟩ := (hlu.and ((near hl).and ((near hu).and (near hx)))).exists
  obtain ⟨-, b1, -⟩ := est_evaluated hrep (hup n) (hxs n)
  have := hbad n (l n) (u n) (pvar (xs n)) (by rw [(hci n).1, e1, e2]) b1 h1 h2
  linarith

end Arm
end Verif

namespace Verif
namespace Bandit
open MeasureTheory ProbabilityTheory Filter Topology
variable {I E W β : Type} [DecidableEq I]

theorem family_update {J S : Type} {o : J → ArmOps S W β ℝ} {d : ExpData β} {δ : Fl ℝ} {x x' : J × S} {w w' : W} {r : Fl ℝ × Fl ℝ}
    (h : (ArmOps.family o).update d δ (x, w) = (.ok r, x', w')) : x'.1 = x.1 ∧ (o x.1).update d δ (x.2, w) = (.ok r, x'.2, w') := by
  simp only [ArmOps.family, Prod.mk.injEq] at h
  obtain ⟨h1, rfl, h3⟩ := h
  exact ⟨rfl, Prod.ext h1 (Prod.ext rfl h3)⟩

/-- sample-splitting arms with their own attributes and costs -/
noncomputable def ssFamily (acfg : I → SSConfig β ℝ) (eops : I → EtaOps E β ℝ) (rng : Rng W ℝ) (cost : I → ℝ) : ArmOps (I × ArmState E β ℝ) W β ℝ :=
  .family fun i => ssArmOps (acfg i) (eops i) realLib rng (.fin (cost i))

variable {acfg : I → SSConfig β ℝ} {eops : I → EtaOps E β ℝ} {rng : Rng W ℝ} {cost : I → ℝ} {env : BanditEnv W β}
  {cfg : BanditCfg I ℝ} {all : Option (ExpData β)} {heap : I → I × ArmState E β ℝ} {w0 : W}

theorem ss_counts : Counts (ssFamily acfg eops rng cost) fun x => x.2.numPulled := by
  intro d δ x w r x' w' h
  obtain ⟨-, h⟩ := family_update h
  rcases Arm.update_fields (show Arm.ssUpdate _ _ _ _ _ _ _ = (.ok (r.1, r.2), _) from h) with h | h <;> exact h.2.1

/-- an arm that follows observations settles at its cost times the limit of the variance -/
theorem ss_settles (hnd : cfg.arms.Nodup) {δ : ℝ} (hlev : level cfg = .fin δ) (hheap : ∀ a, (heap a).1 = a ∧ (heap a).2.numPulled = 0)
    (run : Nat → Py ((I → I × ArmState E β ℝ) × W) (Option (BanditData I ℝ)))
    (hrun : run ∈ [uniformRun env (ssFamily acfg eops rng cost) cfg all, lucbRun env (ssFamily acfg eops rng cost) cfg all,
      seRun env (ssFamily acfg eops rng cost) cfg all])
    {a : I} (hrep : Arm.ScoreRepeatable (eops a)) {ys : ℕ → List ℝ} (hys : ∀ n, (ys n).length = n) {m v q : ℝ}
    (hm : Tendsto (fun n => pmean (ys n)) atTop (𝓝 m))
    (hv : Tendsto (fun n => pvar (ys n)) atTop (𝓝 v)) (hq : Tendsto (fun n => pvar (sqDevs (ys n))) atTop (𝓝 q)) (hv0 : 0 ≤ v)
    (hf : Arm.Follows (acfg a) (eops a) δ (fun s => StateOf run (heap, w0) a (a, s)) ys) :
    Settles (ssFamily acfg eops rng cost) (fun x => x.2.numPulled) run (heap, w0) a (cost a * v) := by
  intro e he
  have hc : 0 < |cost a| + 1 := by positivity
  obtain ⟨M, hM⟩ := Arm.follows_settles (rng := rng) hrep hys hm hv hq hv0 hf (e := e / (|cost a| + 1)) (by positivity)
  refine ⟨M + 1, fun n s' hn hle => ?_⟩
  replace hle : M + 1 ≤ (s'.1 a).2.numPulled := hle
  obtain ⟨hid, hor⟩ := since_run hnd (Q := fun a x => x.1 = a) (fun a d s w r s' w' hs h => (family_update h).1.trans hs)
    (fun a => (hheap a).1) run hrun hn a
  rcases hor with h | ⟨d, s, w, r, w', hs, hup⟩
  · rw [h, (hheap a).2] at hle
    omega
  · obtain ⟨-, hup⟩ := family_update hup
    rw [hs, hlev] at hup
    obtain ⟨l, u, x, e1, e2, e3, e4, e5⟩ := hM (s'.1 a).2 ⟨n, s', hn, Prod.ext hid rfl⟩ (by omega) ⟨d, s.2, w, r, w', hup⟩
    have scale : ∀ y, |y - v| ≤ e / (|cost a| + 1) → |cost a * y - cost a * v| ≤ e := by
      intro y hy
      rw [← mul_sub, abs_mul]
      calc |cost a| * |y - v| ≤ |cost a| * (e / (|cost a| + 1)) := by gcongr
        _ ≤ (|cost a| + 1) * (e / (|cost a| + 1)) := by gcongr; linarith
        _ = e := by field_simp
    refine ⟨cost a * l, cost a * u, cost a * x, ?_, ?_, ?_, scale l e3, scale u e4, scale x e5⟩
    · show ((s'.1 a).2.ci.1.map (Fl.fin (cost (s'.1 a).1)).mul) = _
      rw [e1, hid]; rfl
    · show ((s'.1 a).2.ci.2.map (Fl.fin (cost (s'.1 a).1)).mul) = _
      rw [e1, hid]; rfl
    · show ((s'.1 a).2.varEst.map (Fl.fin (cost (s'.1 a).1)).mul) = _
      rw [e2, hid]; rfl

end Bandit
end Verif
