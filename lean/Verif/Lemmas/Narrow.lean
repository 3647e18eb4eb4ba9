import Verif.Spec.Narrow
import Verif.Props.Bandits2

/-!
# What narrow intervals imply for the stopping test, the selection and the elimination
-/

set_option linter.unusedSectionVars false
set_option linter.unusedSimpArgs false

namespace Verif
namespace Bandit

variable {I S W β α : Type} [Field α] [LinearOrder α] [IsStrictOrderedRing α] [DecidableEq I]
variable {env : BanditEnv W β} {ops : ArmOps S W β α} {cfg : BanditCfg I α} {heap : I → S}

/-- finite bounds around the estimate and the true value -/
structure Iv (ops : ArmOps S W β α) (heap : I → S) (θ : I → α) (a : I) (l u v : α) : Prop where
  lcb : lcbV ops heap a = .fin l
  ucb : ucbV ops heap a = .fin u
  var : varV ops heap a = .fin v
  lt : l ≤ θ a
  tu : θ a ≤ u
  lv : l ≤ v
  vu : v ≤ u

theorem fin_le {x y : α} : (Fl.fin x).le (.fin y) = true ↔ x ≤ y := by simp [Fl.le, Fl.lt, Fl.eq, le_iff_lt_or_eq.symm]
theorem fin_lt {x y : α} : (Fl.fin x).lt (.fin y) = true ↔ x < y := by simp [Fl.lt]
theorem fin_eq {x y : α} : (Fl.fin x).eq (.fin y) = true ↔ x = y := by simp [Fl.eq]

/-- The stopping test failed although all values are finite: an arm of lowest estimate and another one overlap. -/
theorem checkEnd_overlap (hnd : cfg.arms.Nodup) {τ : α} (htol : cfg.errorTol = .fin τ) {l u v : I → α}
    (hl : ∀ a ∈ cfg.arms, lcbV ops heap a = .fin (l a)) (hu : ∀ a ∈ cfg.arms, ucbV ops heap a = .fin (u a))
    (hv : ∀ a ∈ cfg.arms, varV ops heap a = .fin (v a)) {best : List I}
    (h : checkEnd ops cfg heap = .ok (false, best)) :
    ∃ b ∈ cfg.arms, ∃ a ∈ cfg.arms, a ≠ b ∧ (∀ c ∈ cfg.arms, v b ≤ v c) ∧ (∀ c ∈ cfg.arms, c ≠ b → l a ≤ l c) ∧ l a - τ ≤ u b := by
  have hE := checkEnd_ok h
  unfold endCondition at hE
  have hinf : (cfg.arms.map (ucbV ops heap)).any Fl.isInf = false := by
    rw [List.any_eq_false]
    intro x hx
    obtain ⟨a, ha, rfl⟩ := List.mem_map.mp hx
    rw [hu a ha]; simp [Fl.isInf]
  rw [if_neg (by simp [hinf])] at hE
  simp only [bind, Except.bind] at hE
  rcases hm : Fl.pyMin (cfg.arms.map (varV ops heap)) with e | m
  · simp [hm] at hE
  simp only [hm] at hE
  have hmn : m.isNan = false := by
    obtain ⟨a, ha, hx⟩ := List.mem_map.mp (Fl.pyMin_mem hm)
    rw [← hx, hv a ha]; rfl
  rw [hmn] at hE
  simp only [Bool.false_eq_true, if_false] at hE
  rcases hi : Fl.argmin (cfg.arms.map (varV ops heap)) with e | i
  · simp [hi] at hE
  simp only [hi] at hE
  rcases hat : at? (cfg.arms.map (ucbV ops heap)) i with e | x
  · simp [hat] at hE
  simp only [hat] at hE
  rcases hr : Fl.pyMin ((cfg.arms.map (lcbV ops heap)).eraseIdx i) with e | y
  · simp [hr] at hE
  simp only [hr] at hE
  rcases hb : cfg.arms[i]? with _ | b
  · simp [hb] at hE
  simp only [hb, Except.ok.injEq, Prod.mk.injEq] at hE
  have hbm : b ∈ cfg.arms := List.mem_of_getElem? hb
  have hx : x = .fin (u b) := by
    unfold at? at hat
    rw [List.getElem?_map, hb] at hat
    simp only [Option.map_some, Except.ok.injEq] at hat
    rw [← hat, hu b hbm]
  have hmem := Fl.pyMin_mem hr
  rw [List.mem_eraseIdx_iff_getElem?] at hmem
  obtain ⟨j, hj, hjy⟩ := hmem
  rw [List.getElem?_map] at hjy
  rcases ha : cfg.arms[j]? with _ | a
  · simp [ha] at hjy
  simp only [ha, Option.map_some, Option.some.injEq] at hjy
  have ham : a ∈ cfg.arms := List.mem_of_getElem? ha
  rw [hl a ham] at hjy
  obtain ⟨z, hz, hz'⟩ := Fl.argmin_spec hi
  rw [List.getElem?_map, hb] at hz
  simp only [Option.map_some, Option.some.injEq] at hz
  rw [hv b hbm] at hz
  subst hz
  refine ⟨b, hbm, a, ham, fun hab => hj (getElem?_inj_of_nodup hnd (hab ▸ ha) hb), ?_, ?_, ?_⟩
  · intro c hc
    have := (hz' (by simp)).2 _ (List.mem_map_of_mem hc)
    rw [hv c hc, fin_le] at this
    exact this
  · intro c hc hcb
    obtain ⟨k, hk⟩ := List.mem_iff_getElem?.mp hc
    have := Fl.pyMin_le hr (by rw [← hjy]; simp) _ (mem_eraseIdx_map (lcbV ops heap) hk (by
      rintro rfl
      exact hcb (by rw [hb] at hk; simpa using hk.symm))) (by rw [hl c hc]; simp)
    rw [← hjy, hl c hc, fin_le] at this
    exact this
  · have := hE.1
    rw [hx, ← hjy, htol] at this
    simpa [Fl.sub, Fl.add, Fl.neg, Fl.lt, ← sub_eq_add_neg] using this

/-- The same for intervals around the true values. -/
theorem checkEnd_false (hnd : cfg.arms.Nodup) {τ : α} (htol : cfg.errorTol = .fin τ) {l u v : I → α} {θ : I → α}
    (hiv : ∀ a ∈ cfg.arms, Iv ops heap θ a (l a) (u a) (v a)) {best : List I}
    (h : checkEnd ops cfg heap = .ok (false, best)) :
    ∃ b ∈ cfg.arms, ∃ a ∈ cfg.arms, a ≠ b ∧ (∀ c ∈ cfg.arms, v b ≤ v c) ∧ (∀ c ∈ cfg.arms, c ≠ b → l a ≤ l c) ∧ l a - τ ≤ u b :=
  checkEnd_overlap hnd htol (fun a ha => (hiv a ha).lcb) (fun a ha => (hiv a ha).ucb) (fun a ha => (hiv a ha).var) h

/-- With narrow intervals around the true values the stopping test cannot fail. -/
theorem not_checkEnd_false (hnd : cfg.arms.Nodup) {τ : α} (htol : cfg.errorTol = .fin τ) (hτ : 0 ≤ τ) {l u v : I → α} {θ : I → α}
    (hiv : ∀ a ∈ cfg.arms, Iv ops heap θ a (l a) (u a) (v a)) {w gap : α} (hw : ∀ a ∈ cfg.arms, u a ≤ l a + w) {b : I}
    (hb : BestBy cfg.arms θ gap b) (hgap : 2 * w + τ < gap) {best : List I} : checkEnd ops cfg heap ≠ .ok (false, best) := by
  intro h
  obtain ⟨c, hc, a, ha, hac, h1, h2, h3⟩ := checkEnd_false hnd htol hiv h
  have hcb : c = b := by
    by_contra hne
    have i1 := hiv c hc
    have i2 := hiv b hb.1
    have := hb.2 c hc hne
    have := h1 b hb.1
    have := hw c hc
    have := hw b hb.1
    linarith [i1.lt, i1.tu, i1.lv, i1.vu, i2.lt, i2.tu, i2.lv, i2.vu]
  subst hcb
  have i1 := hiv a ha
  have i2 := hiv c hc
  have := hb.2 a ha hac
  have := hw a ha
  have := hw c hc
  linarith [i1.lt, i1.tu, i1.lv, i1.vu, i2.lt, i2.tu, i2.lv, i2.vu]

/-- With narrow intervals the best arm has the strictly lowest estimate. -/
theorem best_lowest {l u v : I → α} {θ : I → α}
    (hiv : ∀ a ∈ cfg.arms, Iv ops heap θ a (l a) (u a) (v a)) {w gap : α} (hw : ∀ a ∈ cfg.arms, u a ≤ l a + w) {b : I}
    (hb : BestBy cfg.arms θ gap b) (hgap : 2 * w < gap) (a : I) (ha : a ∈ cfg.arms) (hab : a ≠ b) : v b < v a := by
  have i1 := hiv a ha
  have i2 := hiv b hb.1
  have := hb.2 a ha hab
  have := hw a ha
  have := hw b hb.1
  linarith [i1.lt, i1.tu, i1.lv, i1.vu, i2.lt, i2.tu, i2.lv, i2.vu]

theorem filter_eq_singleton {l : List I} (hnd : l.Nodup) {p : I → Bool} {b : I} (hb : b ∈ l) (hp : ∀ a ∈ l, p a = true ↔ a = b) :
    l.filter p = [b] := by
  have h1 : l.filter p = l.filter (· == b) := by
    apply List.filter_congr
    intro a ha
    rw [Bool.eq_iff_iff, hp a ha]; simp
  rw [h1, List.filter_beq, List.count_eq_one_of_mem hnd hb]
  rfl

theorem lowestVarArms_unique (hnd : cfg.arms.Nodup) {v : I → α} (hv : ∀ a ∈ cfg.arms, varV ops heap a = .fin (v a)) {b : I}
    (hb : b ∈ cfg.arms) (hlow : ∀ a ∈ cfg.arms, a ≠ b → v b < v a) {best : List I} (h : lowestVarArms ops cfg heap = .ok best) :
    best = [b] := by
  rcases lowestVarArms_ok h with ⟨h0, -⟩ | ⟨m, h1, rfl⟩
  · rw [h0] at hb; simp at hb
  have hm : m = .fin (v b) := by
    obtain ⟨a, ha, hx⟩ := List.mem_map.mp (Fl.pyMin_mem h1)
    rw [hv a ha] at hx
    subst hx
    have := Fl.pyMin_le h1 (by simp) _ (List.mem_map_of_mem hb) (by rw [hv b hb]; simp)
    rw [hv b hb, fin_le] at this
    by_cases hab : a = b
    · rw [hab]
    · exact absurd (hlow a ha hab) (not_lt.mpr this)
  subst hm
  refine filter_eq_singleton hnd hb ?_
  intro a ha
  rw [hv a ha, fin_eq]
  constructor
  · intro h
    by_contra hab
    exact absurd (hlow a ha hab) (by rw [h]; simp)
  · rintro rfl; rfl

theorem checkEnd_unique (hnd : cfg.arms.Nodup) {v : I → α} (hv : ∀ a ∈ cfg.arms, varV ops heap a = .fin (v a)) {b : I}
    (hb : b ∈ cfg.arms) (hlow : ∀ a ∈ cfg.arms, a ≠ b → v b < v a) {best : List I} (h : checkEnd ops cfg heap = .ok (true, best)) :
    best = [b] := by
  obtain ⟨c, m, h1, h2, -, -, -, -, h5, -⟩ := checkEnd_true hnd h
  rw [h2]
  by_contra hne
  have hcb : c ≠ b := fun h => hne (by rw [h])
  have := h5 (by rw [hv c h1]; simp) b hb
  rw [hv c h1, hv b hb, fin_le] at this
  exact absurd (hlow c h1 hcb) (not_lt.mpr this)

/-- Elimination with narrow intervals. -/
theorem elim_drops {r : RoundRec I S β α} {next : List I} (h : ElimStep ops r next) {l u v : I → α} {θ : I → α}
    (hiv : ∀ a ∈ r.arms, Iv ops r.heap θ a (l a) (u a) (v a)) {w : α} (hw : ∀ a ∈ r.arms, u a ≤ l a + w) {b : I}
    (hb : b ∈ r.arms) {a : I} (ha : a ∈ r.arms) (hgap : θ b + 3 * w ≤ θ a) : a ∉ next := by
  obtain ⟨lowest, m, h1, h2, rfl⟩ := h
  intro hm
  rw [List.mem_filter] at hm
  obtain ⟨c, hc, hcx⟩ := List.mem_map.mp (Fl.pyMin_mem h2)
  rw [List.mem_filter, Fl.eq_iff] at hc
  have hlow := Fl.pyMin_le h1 (by rw [← hc.2.1, (hiv c hc.1).var]; simp) _ (List.mem_map_of_mem hb) (by rw [(hiv b hb).var]; simp)
  rw [← hc.2.1, (hiv c hc.1).var, (hiv b hb).var, fin_le] at hlow
  have hlt := hm.2
  rw [← hcx, (hiv c hc.1).ucb, (hiv a ha).lcb, fin_lt] at hlt
  have i1 := hiv a ha
  have i2 := hiv b hb
  have i3 := hiv c hc.1
  have := hw a ha
  have := hw b hb
  have := hw c hc.1
  linarith [i1.lt, i1.tu, i1.lv, i1.vu, i2.lt, i2.tu, i2.lv, i2.vu, i3.lt, i3.tu, i3.lv, i3.vu]

/-- A round of LUCB that follows a failed stopping test pulls the arm `p` of lowest estimate and the arm `q` of lowest lower bound among
the others, and their intervals overlap. -/
theorem select_overlap (hnd : cfg.arms.Nodup) {τ : α} (htol : cfg.errorTol = .fin τ) {l u v : I → α}
    (el : ∀ a ∈ cfg.arms, lcbV ops heap a = .fin (l a)) (eu : ∀ a ∈ cfg.arms, ucbV ops heap a = .fin (u a))
    (ev : ∀ a ∈ cfg.arms, varV ops heap a = .fin (v a))
    (hl : ∀ a ∈ cfg.arms, ∀ b ∈ cfg.arms, l a = l b → a = b) (hu : ∀ a ∈ cfg.arms, ∀ b ∈ cfg.arms, u a = u b → a = b)
    (hv : ∀ a ∈ cfg.arms, ∀ b ∈ cfg.arms, v a = v b → a = b)
    {best : List I} (h : checkEnd ops cfg heap = .ok (false, best)) {chosen : List I} {w0 : W} {s' : (I → S) × W}
    (hs : selectArms env ops cfg (heap, w0) = (.ok chosen, s')) :
    ∃ p q, chosen = [p, q] ∧ p ≠ q ∧ p ∈ cfg.arms ∧ q ∈ cfg.arms ∧ (∀ a ∈ cfg.arms, v p ≤ v a) ∧
      (∀ a ∈ cfg.arms, a ≠ p → l q ≤ l a) ∧ l q - τ ≤ u p := by
  obtain ⟨p, q, rfl, hpq, hp, hq, hsel⟩ := C41_selection_partial hnd hs
    (fun a ha b hb h => hu a ha b hb (by rw [eu a ha, eu b hb] at h; simpa using h))
    (fun a ha b hb h => hl a ha b hb (by rw [el a ha, el b hb] at h; simpa using h))
  obtain ⟨a0, ha0⟩ : ∃ a0, cfg.arms.head? = some a0 := by
    cases hc : cfg.arms with
    | nil => rw [hc] at hp; simp at hp
    | cons x l => exact ⟨x, rfl⟩
  obtain ⟨⟨-, s1⟩, -, s3, s4⟩ := hsel a0 ha0 (by rw [ev a0 (List.mem_of_mem_head? ha0)]; simp)
  have s1' : ∀ a ∈ cfg.arms, v p ≤ v a := by
    intro a ha
    have := s1 a ha (by rw [ev a ha]; simp)
    rwa [ev p hp, ev a ha, fin_le] at this
  have s4' : ∀ a ∈ cfg.arms, a ≠ p → l q ≤ l a := by
    intro a ha hap
    have := s4 a ha (by
      rw [ev a ha, ev p hp]
      exact fun h => hap (hv a ha p hp (by simpa using h))) (by rw [el a ha]; simp)
    rwa [el q hq, el a ha, fin_le] at this
  obtain ⟨c, hc, a, ha, hac, h1, h2, h3⟩ := checkEnd_overlap hnd htol el eu ev h
  have hcp : c = p := hv c hc p hp (le_antisymm (h1 p hp) (s1' c hc))
  subst hcp
  have hov : l q - τ ≤ u c := by linarith [s4' a ha hac, h2 q hq hpq.symm]
  exact ⟨c, q, rfl, hpq, hp, hq, s1', s4', hov⟩

/-- A round of LUCB that follows a failed stopping test pulls an arm whose interval is not narrow. -/
theorem select_wide (hnd : cfg.arms.Nodup) {τ : α} (htol : cfg.errorTol = .fin τ) (hτ : 0 ≤ τ) {l u v : I → α} {θ : I → α}
    (hiv : ∀ a ∈ cfg.arms, Iv ops heap θ a (l a) (u a) (v a))
    (hl : ∀ a ∈ cfg.arms, ∀ b ∈ cfg.arms, l a = l b → a = b) (hu : ∀ a ∈ cfg.arms, ∀ b ∈ cfg.arms, u a = u b → a = b)
    (hv : ∀ a ∈ cfg.arms, ∀ b ∈ cfg.arms, v a = v b → a = b) {w gap : α} {b : I} (hb : BestBy cfg.arms θ gap b) (hgap : 2 * w + τ < gap)
    {best : List I} (h : checkEnd ops cfg heap = .ok (false, best)) {chosen : List I} {w0 : W} {s' : (I → S) × W}
    (hs : selectArms env ops cfg (heap, w0) = (.ok chosen, s')) : ∃ a ∈ chosen, a ∈ cfg.arms ∧ ¬ u a ≤ l a + w := by
  obtain ⟨c, q, rfl, hpq, hp, hq, s1', s4', hov⟩ := select_overlap hnd htol (fun a ha => (hiv a ha).lcb) (fun a ha => (hiv a ha).ucb)
    (fun a ha => (hiv a ha).var) hl hu hv h hs
  by_contra hnone
  push Not at hnone
  have wp := hnone c (by simp) hp
  have wq := hnone q (by simp) hq
  have i1 := hiv c hp
  have i2 := hiv q hq
  have i3 := hiv b hb.1
  by_cases hpb : c = b
  · subst hpb
    have := hb.2 q hq hpq.symm
    linarith [i1.lt, i1.tu, i1.lv, i1.vu, i2.lt, i2.tu, i2.lv, i2.vu]
  · have g1 := hb.2 c hp hpb
    have g2 := s4' b hb.1 (fun h => hpb h.symm)
    have hqb : q = b := by
      by_contra hqb
      have g3 := hb.2 q hq hqb
      have hw0 : 0 ≤ w := by linarith [i1.lv, i1.vu]
      linarith [i1.lt, i1.tu, i1.lv, i1.vu, i2.lt, i2.tu, i2.lv, i2.vu, i3.lt, i3.tu]
    subst hqb
    have g4 := s1' q hq
    linarith [i1.lt, i1.tu, i1.lv, i1.vu, i2.lt, i2.tu, i2.lv, i2.vu]

end Bandit
end Verif
