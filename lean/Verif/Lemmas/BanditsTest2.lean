import Verif.Lemmas.BanditsTest

/-!
# Lemmas: rounds of successive elimination and LUCB with arms of constant estimates
-/

set_option linter.unusedSectionVars false
set_option linter.unusedSimpArgs false

namespace Verif
namespace Bandit
variable {I W β α : Type} [Field α] [LinearOrder α] [IsStrictOrderedRing α] [DecidableEq I]
variable {v : I → α} {wd : I → ℕ → Fl α} {w : I → ℕ → α} {n : I → ℕ} {cfg : BanditCfg I α}

theorem pyMin_fin {l : List I} {f : I → Fl α} {g : I → α} (hf : ∀ a ∈ l, f a = .fin (g a)) {b : I} (hb : b ∈ l) (h : ∀ a ∈ l, g b ≤ g a) : Fl.pyMin (l.map f) = .ok (.fin (g b)) := by
  obtain ⟨m, hm⟩ := Fl.pyMin_exists (l := l.map f) (by intro h0; rw [List.map_eq_nil_iff] at h0; simp [h0] at hb)
  rw [hm]
  obtain ⟨a, ha, rfl⟩ := List.mem_map.1 (Fl.pyMin_mem hm)
  have := Fl.pyMin_le hm (by rw [hf a ha]; simp) _ (List.mem_map_of_mem hb) (by rw [hf b hb]; simp)
  rw [hf a ha, hf b hb, fin_le] at this
  rw [hf a ha, le_antisymm this (h a ha)]

/-! ## Successive elimination -/

theorem push_addSamples (k : I → ℕ) (m : ℕ) (l : List I) (h : Hist I α) : push v w n k l (addSamples m h) = addSamples m (push v w n k l h) := rfl

theorem fold_setLast (m : ℕ) : ∀ (l : List I), l.Nodup → ∀ h : Hist I α, l.foldl (fun h a => setLastSample m a h) h =
    { h with samples := fun a => if a ∈ l then (h.samples a).dropLast ++ [m] else h.samples a } := by
  intro l
  induction l with
  | nil => intro _ h; simp
  | cons a l ih =>
    intro hnd h
    rw [List.nodup_cons] at hnd
    rw [List.foldl_cons, ih hnd.2]
    unfold setLastSample
    congr 1
    funext b
    by_cases hb : b = a
    · subst hb; simp [hnd.1]
    · simp [hb, Function.update_of_ne hb]

theorem setLast_push {arms cands : List I} (hnd : cands.Nodup) (hsub : ∀ a ∈ cands, a ∈ arms) (m : ℕ) (h : Hist I α) (N : ℕ) :
    cands.foldl (fun h a => setLastSample m a h) (addSamples N (push v w n (fun _ => 0) arms h)) = addSamples N (push v w n (fun a => if a ∈ cands then m else 0) arms h) := by
  rw [fold_setLast m _ hnd]
  unfold addSamples push
  congr 1
  funext a
  by_cases h1 : a ∈ cands
  · simp [h1, hsub a h1]
  · simp [h1]

/-- the candidates that are left -/
theorem eliminate_const {h : Hist I α} {cands : List I} {g : I → α} {b : I} (hb : b ∈ cands) (hmin : ∀ a ∈ cands, v b ≤ v a)
    (hv : ∀ a ∈ cands, (h.var a).getLast? = some (.fin (v a))) (hu : ∀ a ∈ cands, (h.ucb a).getLast? = some (.fin (v a + g a)))
    (hl : ∀ a ∈ cands, (h.lcb a).getLast? = some (.fin (v a - g a))) (hg : ∀ a ∈ cands, g a = g b) :
    eliminate h cands = .ok (cands.filter fun a => v a - g a < v b + g b) := by
  unfold eliminate
  rw [mapM_ok_of (fun a => lastOf (h.var a)) (fun a => .fin (v a)) cands fun a ha => by simp [lastOf, hv a ha],
    mapM_ok_of (fun a => lastOf (h.lcb a)) (fun a => .fin (v a - g a)) cands fun a ha => by simp [lastOf, hl a ha]]
  simp only [bind, Except.bind, pure, Except.pure]
  rw [pyMin_fin (fun _ _ => rfl) hb hmin]
  simp only
  rw [List.map_map, ExpData.filterMask_eq_filter]
  have hlow : ∀ a ∈ cands.filter ((fun x => x.eq (Fl.fin (v b))) ∘ fun a => Fl.fin (v a)), a ∈ cands ∧ v a = v b := fun a ha => by
    rw [List.mem_filter] at ha
    exact ⟨ha.1, fin_eq.1 ha.2⟩
  have hbl : b ∈ cands.filter ((fun x => x.eq (Fl.fin (v b))) ∘ fun a => Fl.fin (v a)) := List.mem_filter.2 ⟨hb, fin_eq.2 rfl⟩
  rw [mapM_ok_of (fun a => lastOf (h.ucb a)) (fun a => .fin (v a + g a)) _ fun a ha => by simp [lastOf, hu a (hlow a ha).1]]
  simp only
  rw [pyMin_fin (fun _ _ => rfl) hbl fun a ha => by rw [(hlow a ha).2, hg a (hlow a ha).1]]
  simp only
  rw [List.map_map, ExpData.filterMask_eq_filter]
  rfl

section
variable {w : ℕ → α} {m : α} {u : ℕ}
open Classical in
/-- units of arm `a` in round `t` -/
noncomputable def seUnits (v : I → α) (w : ℕ → α) (u : ℕ) (m : α) (a : I) (t : ℕ) : ℕ := if Alive v w u m t a then u else 0

open Classical in
/-- the candidates after `t` rounds -/
noncomputable def seCands (arms : List I) (v : I → α) (w : ℕ → α) (u : ℕ) (m : α) (t : ℕ) : List I := arms.filter fun a => Alive v w u m t a

theorem alive_le {s t : ℕ} (h : s ≤ t) {a : I} (ha : Alive v w u m t a) : Alive v w u m s a := fun i h0 h1 => ha i h0 (h1.trans h)

theorem alive_zero (a : I) : Alive v w u m 0 a := fun s h0 h1 => by omega

theorem alive_succ {t : ℕ} {a : I} : Alive v w u m (t + 1) a ↔ Alive v w u m t a ∧ v a - w (u * (t + 1)) < m + w (u * (t + 1)) := by
  refine ⟨fun h => ⟨alive_le (by omega) h, h _ (by omega) le_rfl⟩, fun h s h0 h1 => ?_⟩
  rcases Nat.lt_or_ge s (t + 1) with h2 | h2
  · exact h.1 s h0 (by omega)
  · obtain rfl : s = t + 1 := by omega
    exact h.2

theorem seCount_alive {t : ℕ} {a : I} (ha : Alive v w u m t a) : ∑ i ∈ Finset.range (t + 1), seUnits v w u m a i = u * (t + 1) := by
  have : ∀ i ∈ Finset.range (t + 1), seUnits v w u m a i = u := fun i hi => if_pos (alive_le (by have := Finset.mem_range.1 hi; omega) ha)
  rw [Finset.sum_congr rfl this]
  simp [mul_comm]

theorem seCount_pos (hu : 0 < u) (t : ℕ) (a : I) : 0 < ∑ i ∈ Finset.range (t + 1), seUnits v w u m a i := by
  rw [Finset.sum_range_succ']
  have : seUnits v w u m a 0 = u := by rw [seUnits, if_pos (alive_zero a)]
  omega

theorem seCands_succ {arms : List I} {t : ℕ} : seCands arms v w u m (t + 1) = (seCands arms v w u m t).filter fun a => v a - w (u * (t + 1)) < m + w (u * (t + 1)) := by
  unfold seCands
  rw [List.filter_filter]
  refine List.filter_congr fun a _ => ?_
  rw [Bool.eq_iff_iff, Bool.and_eq_true]
  simp only [decide_eq_true_eq]
  rw [alive_succ, and_comm]

theorem se_sum {arms : List I} (t : ℕ) : (seCands arms v w u m t).length * u = (arms.map fun a => seUnits v w u m a t).sum := by
  induction arms with
  | nil => simp [seCands]
  | cons a l ih =>
    rw [List.map_cons, List.sum_cons, ← ih]
    by_cases h : Alive v w u m t a
    · simp [seCands, seUnits, h]; ring
    · simp [seCands, seUnits, h]

/-- units of the arms after `t` rounds -/
noncomputable def seCount (arms : List I) (v : I → α) (w : ℕ → α) (u : ℕ) (m : α) (t : ℕ) : I → ℕ := fun a => if a ∈ arms then ∑ i ∈ Finset.range t, seUnits v w u m a i else 0

theorem mem_seCands {arms : List I} {t : ℕ} {a : I} : a ∈ seCands arms v w u m t ↔ a ∈ arms ∧ Alive v w u m t a := by
  simp [seCands]

theorem seCount_bump {arms : List I} (t : ℕ) : bump (seCount arms v w u m t) u (seCands arms v w u m t) = seCount arms v w u m (t + 1) := by
  funext a
  by_cases h : a ∈ arms
  · by_cases h1 : Alive v w u m t a
    · simp [bump, seCount, mem_seCands, h, h1, Finset.sum_range_succ, seUnits]
    · simp [bump, seCount, mem_seCands, h, h1, Finset.sum_range_succ, seUnits]
  · simp [bump, seCount, mem_seCands, h]

theorem se_stop {env : BanditEnv W β} (hw : Widths wd fun _ => w) (hu : 0 < cfg.unitsPerRound) {lim : Fl α} (hlim : cfg.sampleLimit = some lim) {h : Hist I α} {cands : List I} {t : ℕ}
    (h2 : 2 ≤ cands.length) (hne : cfg.arms ≠ []) (ho : lim.lt (.fin (h.total : α)) = true) (s : W) :
    seRound env ConstantArm.ops cfg none (h, cands) (constHeap v wd (seCount cfg.arms v w cfg.unitsPerRound m (t + 1)), s) =
      (.ok (.inr (Hist.done h (cfg.arms.filter fun a => ∀ c ∈ cfg.arms, v a ≤ v c))), constHeap v wd (seCount cfg.arms v w cfg.unitsPerRound m (t + 1)), s) := by
  have hpos : ∀ a ∈ cfg.arms, 0 < seCount cfg.arms v w cfg.unitsPerRound m (t + 1) a := fun a ha => by
    rw [seCount, if_pos ha]
    exact seCount_pos hu t a
  unfold seRound
  rw [if_neg (by simp only; omega), Py.bind_apply]
  rw [overLimit_const hlim, ho]
  simp only [Py.lift, if_true]
  rw [Py.bind_apply]
  simp only [Py.get]
  rw [Py.bind_apply, lowest_const hw hpos hne]
  rfl

theorem se_round {env : BanditEnv W β} (hw : Widths wd fun _ => w) (hg : Gives env cfg.unitsPerRound) (hu : 0 < cfg.unitsPerRound) (hnd : cfg.arms.Nodup) {lim : Fl α}
    (hlim : cfg.sampleLimit = some lim) {b : I} (hb : b ∈ cfg.arms) (hmin : ∀ a ∈ cfg.arms, v b ≤ v a) (hw0 : ∀ m, 0 < m → 0 < w m) {t : ℕ} {h : Hist I α}
    (H : After cfg.arms v (fun _ => w) (seUnits v w cfg.unitsPerRound (v b)) t h) (h2 : 2 ≤ (seCands cfg.arms v w cfg.unitsPerRound (v b) t).length)
    (ho : lim.lt (.fin (h.total : α)) = false) (s : W) :
    ∃ h' s', After cfg.arms v (fun _ => w) (seUnits v w cfg.unitsPerRound (v b)) (t + 1) h' ∧
      seRound env ConstantArm.ops cfg none (h, seCands cfg.arms v w cfg.unitsPerRound (v b) t) (constHeap v wd (seCount cfg.arms v w cfg.unitsPerRound (v b) t), s) =
        (.ok (if (seCands cfg.arms v w cfg.unitsPerRound (v b) (t + 1)).length = 1 then .inr (Hist.done h' (seCands cfg.arms v w cfg.unitsPerRound (v b) (t + 1)))
          else .inl (h', seCands cfg.arms v w cfg.unitsPerRound (v b) (t + 1))), constHeap v wd (seCount cfg.arms v w cfg.unitsPerRound (v b) (t + 1)), s') := by
  have hcn : (seCands cfg.arms v w cfg.unitsPerRound (v b) t).Nodup := hnd.filter _
  obtain ⟨s', hp⟩ := pull_all (v := v) (wd := wd) hu hg _ hcn (seCount cfg.arms v w cfg.unitsPerRound (v b) t) s
  rw [seCount_bump] at hp
  have hpos : ∀ a ∈ cfg.arms, 0 < seCount cfg.arms v w cfg.unitsPerRound (v b) (t + 1) a := fun a ha => by
    rw [seCount, if_pos ha]
    exact seCount_pos hu t a
  have hH := H.push (n := seCount cfg.arms v w cfg.unitsPerRound (v b) (t + 1)) (k' := fun a => if a ∈ seCands cfg.arms v w cfg.unitsPerRound (v b) t then cfg.unitsPerRound else 0)
    (fun a ha => if_pos ha) (fun a ha => by
      by_cases h1 : Alive v w cfg.unitsPerRound (v b) t a <;> simp [mem_seCands, ha, h1, seUnits]) (se_sum t)
  have hbal : ∀ t, Alive v w cfg.unitsPerRound (v b) t b := fun t s h0 _ => by
    have := hw0 (cfg.unitsPerRound * s) (Nat.mul_pos hu h0)
    linarith
  have hlast : ∀ {A : Type} (f : ℕ → A) (t : ℕ), ((List.range (t + 1)).map f).getLast? = some (f t) := fun f t => by simp [List.range_succ]
  have hal : ∀ a ∈ seCands cfg.arms v w cfg.unitsPerRound (v b) t, a ∈ cfg.arms ∧ ∑ i ∈ Finset.range (t + 1), seUnits v w cfg.unitsPerRound (v b) a i = cfg.unitsPerRound * (t + 1) :=
    fun a ha => ⟨(mem_seCands.1 ha).1, seCount_alive (mem_seCands.1 ha).2⟩
  refine ⟨_, s', hH, ?_⟩
  have hel := eliminate_const (v := v) (g := fun _ => w (cfg.unitsPerRound * (t + 1))) (mem_seCands.2 ⟨hb, hbal t⟩) (fun a ha => hmin a (mem_seCands.1 ha).1)
    (fun a ha => by rw [hH.var a (hal a ha).1]; simp [List.replicate_succ'])
    (fun a ha => by rw [hH.ucb a (hal a ha).1, hlast, (hal a ha).2])
    (fun a ha => by rw [hH.lcb a (hal a ha).1, hlast, (hal a ha).2]) (fun _ _ => rfl)
  rw [← seCands_succ] at hel
  unfold seRound
  rw [if_neg (by simp only; omega), Py.bind_apply]
  simp only [overLimit_const hlim, ho, Py.lift, Bool.false_eq_true, if_false]
  rw [Py.bind_apply, hp]
  simp only
  rw [Py.bind_apply, record_all hw _ _ hnd hpos]
  simp only
  rw [push_addSamples, setLast_push hcn (fun a ha => (mem_seCands.1 ha).1), Py.bind_apply, hel]
  unfold Py.lift
  simp only
  split <;> rfl

end

/-! ## LUCB -/

theorem chooseMasked_single {S : Type} (env : BanditEnv W β) {arms : List I} {mask : List Bool} {b : I} (h : selectMask arms mask = [b]) (heap : I → S) (s : W) :
    ∃ s', chooseMasked env arms mask (heap, s) = (.ok b, heap, s') := by
  unfold chooseMasked
  have h0 : 0 < (selectMask arms mask).length := by rw [h]; simp
  simp only [dif_pos h0]
  refine ⟨_, congrArg₂ Prod.mk (congrArg Except.ok ?_) rfl⟩
  have : ∀ i : Fin (selectMask arms mask).length, (selectMask arms mask).get i = b := by
    intro i
    have : (selectMask arms mask).get i ∈ [b] := h ▸ List.get_mem (selectMask arms mask) i
    simpa using this
  exact this _

/-- the arms that LUCB pulls: `b` has the lowest estimate and `c` the lowest lower bound of the others -/
structure LucbPair (arms : List I) (v : I → α) (x : I → α) (b c : I) : Prop extends Challenger arms v x b c where
  best : b ∈ arms
  low : ∀ a ∈ arms, a ≠ b → v b < v a

theorem lift_bind {σ A B : Type} (a : A) (f : A → Py σ B) (s : σ) : (Py.lift (.ok a) >>= f) s = f a s := rfl

theorem select_const (env : BanditEnv W β) (hw : Widths wd w) (hn : ∀ a ∈ cfg.arms, 0 < n a) (hnd : cfg.arms.Nodup) {b c : I} (h : LucbPair cfg.arms v (fun a => w a (n a)) b c) (s : W) :
    ∃ s', selectArms env ConstantArm.ops cfg (constHeap v wd n, s) = (.ok [b, c], constHeap v wd n, s') := by
  have hL : cfg.arms.map (lcbV (ConstantArm.ops (W := W) (β := β)) (constHeap v wd n)) = cfg.arms.map fun a => .fin (v a - w a (n a)) := List.map_congr_left fun a ha => (const_V hw (hn a ha)).1
  have hU : cfg.arms.map (ucbV (ConstantArm.ops (W := W) (β := β)) (constHeap v wd n)) = cfg.arms.map fun a => .fin (v a + w a (n a)) := List.map_congr_left fun a ha => (const_V hw (hn a ha)).2.1
  have hV : cfg.arms.map (varV (ConstantArm.ops (W := W) (β := β)) (constHeap v wd n)) = cfg.arms.map fun a => .fin (v a) := List.map_congr_left fun a ha => (const_V hw (hn a ha)).2.2
  have hmin : ∀ a ∈ cfg.arms, v b ≤ v a := fun a ha => by
    by_cases hab : a = b
    · rw [hab]
    · exact (h.low a ha hab).le
  have f1 : cfg.arms.filter (fun a => (Fl.fin (v a)).eq (.fin (v b))) = [b] := filter_eq_singleton hnd h.best fun a ha => by
    rw [fin_eq]
    exact ⟨fun e => by_contra fun hab => absurd (h.low a ha hab) (by rw [e]; simp), fun e => by rw [e]⟩
  have f2 : cfg.arms.filter (fun a => !(Fl.fin (v a)).eq (.fin (v b))) = cfg.arms.filter fun a => a ≠ b := List.filter_congr fun a ha => by
    rw [Bool.eq_iff_iff, Bool.not_eq_true', ← Bool.not_eq_true, fin_eq, decide_eq_true_eq, not_iff_not]
    exact ⟨fun e => by_contra fun hab => absurd (h.low a ha hab) (by rw [e]; simp), fun e => by rw [e]⟩
  have g1 : selectMask cfg.arms (cfg.arms.map fun a => (Fl.fin (v a + w a (n a))).eq (.fin (v b + w b (n b)))) = [b] := by
    unfold selectMask
    rw [ExpData.filterMask_eq_filter]
    refine filter_eq_singleton hnd h.best fun a ha => ?_
    rw [fin_eq]
    exact ⟨fun e => by_contra fun hab => h.tieU a ha hab e, fun e => by rw [e]⟩
  have g2 : selectMask cfg.arms (cfg.arms.map fun a => (Fl.fin (v a - w a (n a))).eq (.fin (v c - w c (n c)))) = [c] := by
    unfold selectMask
    rw [ExpData.filterMask_eq_filter]
    refine filter_eq_singleton hnd h.mem fun a ha => ?_
    rw [fin_eq]
    refine ⟨fun e => by_contra fun hac => ?_, fun e => by rw [e]⟩
    by_cases hab : a = b
    · subst hab
      exact h.tieL e
    · exact absurd e (h.lcb a ha hab hac).ne'
  obtain ⟨s1, e1⟩ := chooseMasked_single env g1 (constHeap v wd n) s
  obtain ⟨s2, e2⟩ := chooseMasked_single env g2 (constHeap v wd n) s1
  have hlow : Fl.pyMin ((cfg.arms.filter fun a => a ≠ b).map fun a => Fl.fin (v a - w a (n a))) = .ok (.fin (v c - w c (n c))) := by
    refine pyMin_fin (fun _ _ => rfl) (List.mem_filter.2 ⟨h.mem, by simpa using h.ne⟩) fun a ha => ?_
    rw [List.mem_filter, decide_eq_true_eq] at ha
    by_cases hac : a = c
    · rw [hac]
    · exact (h.lcb a ha.1 ha.2 hac).le
  refine ⟨s2, ?_⟩
  unfold selectArms
  rw [Py.bind_apply]
  simp only [Py.get]
  rw [collectBounds_of const_isSome, hL, hU, hV, lift_bind]
  simp only
  rw [pyMin_fin (fun _ _ => rfl) h.best hmin, lift_bind]
  rw [if_neg (by simp [Fl.isNan])]
  simp only [List.map_map, Function.comp_def, ExpData.filterMask_map]
  rw [ExpData.filterMask_eq_filter, ExpData.filterMask_eq_filter, f1, f2, hlow]
  simp only [List.map_cons, List.map_nil, Fl.pyMax, List.foldl_nil]
  rw [lift_bind, lift_bind, Py.bind_apply, e1]
  simp only
  rw [Py.bind_apply, e2]
  rfl

theorem sum_ite (p : I → Prop) [DecidablePred p] (u : ℕ) (l : List I) : (l.map fun a => if p a then u else 0).sum = l.countP (fun a => p a) * u := by
  induction l with
  | nil => simp
  | cons a l ih =>
    rw [List.map_cons, List.sum_cons, ih, List.countP_cons]
    by_cases h : p a <;> simp [h]; ring

theorem lucb_stop {env : BanditEnv W β} (hw : Widths wd w) {lim : Fl α} (hlim : cfg.sampleLimit = some lim) (hn : ∀ a ∈ cfg.arms, 0 < n a) (hne : cfg.arms ≠ []) {h : Hist I α}
    (ho : lim.lt (.fin (h.total : α)) = true) (s : W) :
    lucbRound env ConstantArm.ops cfg none h (constHeap v wd n, s) = (.ok (.inr (Hist.done h (cfg.arms.filter fun a => ∀ c ∈ cfg.arms, v a ≤ v c))), constHeap v wd n, s) := by
  unfold lucbRound
  rw [Py.bind_apply]
  rw [overLimit_const hlim, ho]
  simp only [Py.lift, if_true]
  rw [Py.bind_apply]
  simp only [Py.get]
  rw [Py.bind_apply, lowest_const hw hn hne]
  rfl

theorem lucb_round {env : BanditEnv W β} (hw : Widths wd w) (hg : Gives env cfg.unitsPerRound) (hu : 0 < cfg.unitsPerRound) (hnd : cfg.arms.Nodup) {lim : Fl α}
    (hlim : cfg.sampleLimit = some lim) {tol : α} (htol : cfg.errorTol = .fin tol) (ht0 : 0 ≤ tol) (hw0 : ∀ a m, 0 ≤ w a m) (hn : ∀ a ∈ cfg.arms, 0 < n a) {b c : I}
    (hbc : LucbPair cfg.arms v (fun a => w a (n a)) b c) {h : Hist I α} (ho : lim.lt (.fin (h.total : α)) = false) (s : W) :
    ∃ s', ((∃ b', Separated cfg.arms tol v (fun a => w a (bump n cfg.unitsPerRound [b, c] a)) b') → lucbRound env ConstantArm.ops cfg none h (constHeap v wd n, s) =
        (.ok (.inr (Hist.done (addSamples (2 * cfg.unitsPerRound) (push v w (bump n cfg.unitsPerRound [b, c]) (fun a => if a ∈ [b, c] then cfg.unitsPerRound else 0) cfg.arms h)) [b])),
          constHeap v wd (bump n cfg.unitsPerRound [b, c]), s')) ∧
      ((¬ ∃ b', Separated cfg.arms tol v (fun a => w a (bump n cfg.unitsPerRound [b, c] a)) b') → lucbRound env ConstantArm.ops cfg none h (constHeap v wd n, s) =
        (.ok (.inl (addSamples (2 * cfg.unitsPerRound) (push v w (bump n cfg.unitsPerRound [b, c]) (fun a => if a ∈ [b, c] then cfg.unitsPerRound else 0) cfg.arms h))),
          constHeap v wd (bump n cfg.unitsPerRound [b, c]), s')) := by
  obtain ⟨s1, e1⟩ := select_const env hw hn hnd hbc s
  have hp : [b, c].Nodup := by simp [hbc.ne.symm]
  obtain ⟨s2, e2⟩ := pull_all (v := v) (wd := wd) hu hg [b, c] hp n s1
  have hpos : ∀ a ∈ cfg.arms, 0 < bump n cfg.unitsPerRound [b, c] a := fun a ha => by
    have := hn a ha
    unfold bump
    split <;> omega
  have h2 : 2 ≤ cfg.arms.length := by
    have := (List.subperm_of_subset hp (l₂ := cfg.arms) (by
      intro x hx
      rcases List.mem_cons.1 hx with rfl | hx
      · exact hbc.best
      · rw [List.mem_singleton.1 hx]; exact hbc.mem)).length_le
    simpa using this
  refine ⟨s2, fun ⟨b', hb'⟩ => ?_, fun hb' => ?_⟩
  all_goals
    unfold lucbRound
    rw [Py.bind_apply]
    simp only [overLimit_const hlim, ho, Py.lift, Bool.false_eq_true, if_false]
    rw [Py.bind_apply, e1]
    simp only
    rw [Py.bind_apply, e2]
    simp only
    rw [Py.bind_apply, record_all hw _ _ hnd hpos]
    simp only [Py.bind_apply, Py.get, Py.lift]
  · have hbb : b' = b := by
      by_contra hne
      have h1 := hb'.2 b hbc.best (Ne.symm hne)
      have h2 := hbc.low b' hb'.1 hne
      have h3 := hw0 b (bump n cfg.unitsPerRound [b, c] b)
      have h4 := hw0 b' (bump n cfg.unitsPerRound [b, c] b')
      simp only at h1
      linarith
    subst hbb
    rw [checkEnd_sep hw hpos hnd h2 htol ht0 hw0 hb']
    rfl
  · obtain ⟨best, hbest⟩ := checkEnd_not_sep (W := W) (β := β) hw hpos hnd h2 htol (v := v) hb'
    rw [hbest]
    rfl

theorem filter_lowest {arms : List I} (hnd : arms.Nodup) {b : I} (hb : b ∈ arms) (hmin : ∀ a ∈ arms, a ≠ b → v b < v a) : (arms.filter fun a => ∀ c ∈ arms, v a ≤ v c) = [b] := by
  refine filter_eq_singleton hnd hb fun a ha => ?_
  rw [decide_eq_true_eq]
  refine ⟨fun h => by_contra fun hab => absurd (h b hb) (not_le.2 (hmin a ha hab)), ?_⟩
  rintro rfl d hd
  by_cases hda : d = a
  · rw [hda]
  · exact (hmin d hd hda).le

/-! ## Loops -/

theorem loop_exact {σ H R : Type} {body : H → Py σ (H ⊕ R)} (Inv : ℕ → H → σ → Prop) (Post : R → Prop) (T : ℕ)
    (step : ∀ t < T, ∀ h s, Inv t h s → ∃ h' s', body h s = (.ok (.inl h'), s') ∧ Inv (t + 1) h' s')
    (exit : ∀ h s, Inv T h s → ∃ r s', body h s = (.ok (.inr r), s') ∧ Post r) :
    ∀ (k t : ℕ), t + k = T → ∀ fuel, k < fuel → ∀ h s, Inv t h s → ∃ r s', Py.loop body fuel h s = (.ok (some r), s') ∧ Post r := by
  intro k
  induction k with
  | zero =>
    intro t ht fuel hf h s hi
    obtain ⟨fuel, rfl⟩ := Nat.exists_eq_add_of_lt hf
    obtain rfl : t = T := by omega
    obtain ⟨r, s', e, hp⟩ := exit h s hi
    refine ⟨r, s', ?_, hp⟩
    rw [Nat.zero_add]
    unfold Py.loop
    rw [Py.bind_apply, e]
    rfl
  | succ k ih =>
    intro t ht fuel hf h s hi
    obtain ⟨fuel, rfl⟩ : ∃ f, fuel = f + 1 := ⟨fuel - 1, by omega⟩
    obtain ⟨h', s', e, hi'⟩ := step t (by omega) h s hi
    obtain ⟨r, s'', e', hp⟩ := ih (t + 1) (by omega) fuel (by omega) h' s' hi'
    refine ⟨r, s'', ?_, hp⟩
    unfold Py.loop
    rw [Py.bind_apply, e]
    exact e'

end Bandit
end Verif
