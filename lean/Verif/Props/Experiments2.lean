import Verif.Props.Experiments

/-!
# C96: which instances the experiments of the notebook are run on
-/

set_option linter.unusedSectionVars false
set_option linter.unusedSimpArgs false

namespace Verif
namespace PaperBandits
open Section5 Arm Paper Bandit Plotting
variable {R K F W M P : Type}

theorem sorted_fin (xs : List ℝ) : ∃ ys : List ℝ, sorted (xs.map Fl.fin) = ys.map Fl.fin ∧ ys.Perm xs ∧ ys.Pairwise (· ≤ ·) := by
  have hp := sorted_perm (xs.map Fl.fin)
  have hs := sorted_pairwise (xs.map Fl.fin)
  have hall : ∀ v ∈ sorted (xs.map Fl.fin), ∃ x, Fl.fin x = v := fun v hv => by
    obtain ⟨x, -, hx⟩ := List.mem_map.1 (hp.subset hv)
    exact ⟨x, hx⟩
  obtain ⟨ys, hys⟩ : ∃ ys : List ℝ, sorted (xs.map Fl.fin) = ys.map Fl.fin := by
    generalize sorted (xs.map Fl.fin) = l at hall
    clear hp hs
    induction l with
    | nil => exact ⟨[], rfl⟩
    | cons v l ih =>
      obtain ⟨ys, h⟩ := ih fun v hv => hall v (by simp [hv])
      obtain ⟨x, hx⟩ := hall v (by simp)
      exact ⟨x :: ys, by simp [h, hx]⟩
  rw [hys] at hp hs
  refine ⟨ys, hys, ?_, ?_⟩
  · exact (List.map_perm_map_iff (fun a b h => Fl.fin.inj h)).1 hp
  · rw [List.pairwise_map] at hs
    refine hs.imp fun h => ?_
    simp only [Plotting.sortLe, Fl.le, Fl.lt, Fl.eq, Bool.or_eq_true, decide_eq_true_eq] at h
    exact h.elim le_of_lt le_of_eq

/-- **C96** An instance is accepted if and only if one of the values is more than 5 below all the others. -/
theorem C96_clear_gap (xs : List ℝ) (h2 : 2 ≤ xs.length) :
    (clearGap (xs.map Fl.fin) = .ok true ↔ ∃ x ∈ xs, ∀ y ∈ xs.erase x, x + 5 < y) ∧ ∃ b, clearGap (xs.map Fl.fin) = .ok b := by
  obtain ⟨ys, h, hp, hs⟩ := sorted_fin xs
  have hlen := hp.length_eq
  unfold clearGap
  rw [h]
  match ys, hp, hs, hlen with
  | [], _, _, hlen => simp at hlen; omega
  | [_], _, _, hlen => simp at hlen; omega
  | a :: b :: r, hp, hs, _ =>
    refine ⟨?_, _, rfl⟩
    have e : ((Fl.fin 5).lt ((Fl.fin b).sub (Fl.fin a)) = true) ↔ a + 5 < b := by
      simp only [Fl.sub, Fl.add, Fl.neg, Fl.lt, decide_eq_true_eq]
      constructor <;> intro h <;> linarith
    simp only [List.map_cons, Except.ok.injEq, e]
    have hab : ∀ y ∈ b :: r, b ≤ y := by
      rw [List.pairwise_cons, List.pairwise_cons] at hs
      intro y hy
      rcases List.mem_cons.1 hy with rfl | hy
      · exact le_rfl
      · exact hs.2.1 y hy
    have ha : ∀ y ∈ b :: r, a ≤ y := (List.pairwise_cons.1 hs).1
    constructor
    · intro hlt
      refine ⟨a, hp.subset (by simp), fun y hy => ?_⟩
      have := (hp.erase a).symm.subset hy
      rw [List.erase_cons_head] at this
      have := hab y this
      linarith
    · rintro ⟨x, hx, hy⟩
      by_cases hxa : x = a
      · subst hxa
        exact hy b ((hp.erase x).subset (by simp))
      · have h1 := hy a ((hp.erase x).subset (by rw [List.erase_cons_tail (by simpa using Ne.symm hxa)]; simp))
        have h3 : x ∈ b :: r := by
          have := hp.symm.subset hx
          simpa [hxa] using this
        have := ha x h3
        linarith

/-- **C96** The value compared is the cost of the arm times the variance of the scores of the second half of its view of the data, with the parameter
fitted - after a reset of the arm - on the first half. -/
theorem C96_gap_value (ops : EtaOps (Eta M P) (Cell ℝ) ℝ) (rng : Rng W ℝ) {temp t f0 f1 : ExpData (Cell ℝ)} {a : Nat} {heap : Nat → Obj M P} {w : W} {e1 e2 : Eta M P}
    {c : ℝ} {xs : List ℝ} (ht : (heap a).cfg.transform temp = .ok t) (hf : t.kFold 2 (rng.perm t.nUnits w).1 = .ok [f0, f1])
    (hfit : ops.fit (ops.reset (heap a).st.eta) f0 = (.ok (), e1)) (hsc : ops.score e1 f1 = (.ok (xs.map Fl.fin), e2)) (hc : (heap a).cost = .fin c) (hx : xs ≠ []) :
    (armGap ops rng temp a (heap, w)).1 = .ok (.fin (c * pvar xs)) ∧ ∀ b, b ≠ a → (armGap ops rng temp a (heap, w)).2.1 b = heap b := by
  refine ⟨?_, fun b hb => by simp [armGap, hb]⟩
  have hr : (Arm.reset ops (heap a).st).eta = ops.reset (heap a).st.eta := rfl
  have hl : ∀ (f : ExpData (Cell ℝ)) (s : ArmState (Eta M P) (Cell ℝ) ℝ × W), Py.lift (.ok f) s = (.ok f, s) := fun _ _ => rfl
  unfold armGap gapValue
  simp only [Py.bind_apply, transformAndFold, ht, hf, List.getElem?_cons_zero, List.getElem?_cons_succ, hl, etaFit, etaScore, hr, hfit, hsc, Py.pure_apply, hc, var_fin xs hx, Fl.mul]

/-- the loop over the arms `k`, `k + 1`, …: one value for each, in this order -/
theorem gapLoop_values (ops : EtaOps (Eta M P) (Cell ℝ) ℝ) (rng : Rng W ℝ) (temp : ExpData (Cell ℝ)) {heap : Nat → Obj M P} {v : ℕ → Fl ℝ}
    {st : ℕ → ArmState (Eta M P) (Cell ℝ) ℝ} {w : ℕ → W} (m : ℕ) : ∀ (k : ℕ) (heap' : Nat → Obj M P),
    (∀ i, i < m → gapValue ops rng temp (heap (k + i)) (Arm.reset ops (heap (k + i)).st, w (k + i)) = (.ok (v (k + i)), (st (k + i), w (k + i + 1)))) →
    (∀ i, k ≤ i → heap' i = heap i) →
    ∃ h, gapLoop ops rng temp (List.range' k m) (heap', w k) = (.ok ((List.range' k m).map v), (h, w (k + m))) := by
  induction m with
  | zero => intro k heap' _ _; exact ⟨heap', rfl⟩
  | succ m ih =>
    intro k heap' h hh
    have h0 := h 0 (by omega)
    simp only [Nat.add_zero] at h0
    obtain ⟨g, hg⟩ := ih (k + 1) (Function.update heap' k { heap' k with st := st k }) (fun i hi => by
      have := h (i + 1) (by omega)
      rw [show k + (i + 1) = k + 1 + i by omega] at this
      exact this) (fun i hi => by
      rw [Function.update_of_ne (by omega)]
      exact hh i (by omega))
    refine ⟨g, ?_⟩
    rw [List.range'_succ, gapLoop]
    have ha : armGap ops rng temp k (heap', w k) = (.ok (v k), (Function.update heap' k { heap' k with st := st k }, w (k + 1))) := by
      unfold armGap
      simp only [hh k le_rfl, h0]
    simp only [Py.bind_apply, ha, hg, Py.pure_apply, List.map_cons]
    rw [show k + 1 + m = k + (m + 1) by omega]

theorem repeats_length (ops : ArmOps (Obj M P) W (Cell ℝ) ℝ) (env : BanditEnv W (Cell ℝ)) (seed : Nat → W) (ex : Example W M P) (fuel limit units : Nat) (n : ℕ) :
    ∀ (m : ℕ) (s s' : (Nat → Obj M P) × W) (cs : List Counts), repeats ops env seed ex fuel limit units m n s = (.ok (some cs), s') → cs.length = n := by
  induction n with
  | zero => intro m s s' cs h; simp only [repeats, Py.pure_apply] at h; cases h; rfl
  | succ n ih =>
    intro m s s' cs h
    simp only [repeats] at h
    generalize generate ex.scm (limit + units * ex.arms.length) s.2 = x at h
    rcases x with ⟨_ | all, w⟩
    · cases h
    · dsimp only at h
      generalize repetition ops env seed ex fuel all m (s.1, w) = y at h
      rcases y with ⟨_ | _ | c, s1⟩
      · cases h
      · cases h
      · dsimp only at h
        have h2 := ih (m + 1) s1
        generalize repeats ops env seed ex fuel limit units (m + 1) n s1 = z at h h2
        rcases z with ⟨_ | _ | cs', s2⟩
        · cases h
        · cases h
        · cases h
          rw [List.length_cons, h2 _ _ rfl]

/-- non-vacuity of `C96_clear_gap`: values 3, 20, 8.5 - accepted; 3, 20, 8 - rejected -/
example : clearGap ([3, 20, 17 / 2].map Fl.fin) = .ok true ∧ clearGap ([3, 20, 8].map Fl.fin) ≠ .ok true := by
  refine ⟨((C96_clear_gap _ (by simp)).1).2 ⟨3, by simp, ?_⟩, fun h => ?_⟩
  · simp only [List.erase_cons_head]
    intro y hy
    simp only [List.mem_cons, List.not_mem_nil, or_false] at hy
    rcases hy with rfl | rfl <;> norm_num
  · obtain ⟨x, hx, hy⟩ := ((C96_clear_gap _ (by simp)).1).1 h
    simp only [List.mem_cons, List.not_mem_nil, or_false] at hx
    rcases hx with rfl | rfl | rfl
    · have := hy 8 (by simp)
      norm_num at this
    · have := hy 3 (by rw [List.erase_cons_tail (by norm_num)]; simp)
      norm_num at this
    · have := hy 3 (by rw [List.erase_cons_tail (by norm_num)]; simp)
      norm_num at this

/-- non-vacuity of `C96_gap_value`: an arm of cost 3 that is shown four units, and whose parameter gives those in the second half the scores 5 and 9 -/
example (e : Eta M P) (heap : Nat → Obj M P) : ∃ (ops : EtaOps (Eta M P) (Cell ℝ) ℝ) (rng : Rng Unit ℝ) (temp : ExpData (Cell ℝ)) (o : Obj M P),
    (armGap ops rng temp 7 (Function.update heap 7 o, ())).1 = .ok (.fin 12) := by
  let us : List (Obs ℝ) := [⟨[], .int 0, .flt 1⟩, ⟨[], .int 1, .flt 2⟩, ⟨[], .int 0, .flt 5⟩, ⟨[], .int 1, .flt 9⟩]
  let t : ExpData (Cell ℝ) := Obs.dataset 0 us
  let cfg : SSConfig (Cell ℝ) ℝ := ⟨fun _ => .ok t, .clt, true, .fin 1, .fin 1, .fin 1, .fin 1, .fin 1⟩
  let ops : EtaOps (Eta M P) (Cell ℝ) ℝ := ⟨fun e _ => (.ok (), e), fun _ => .ok true, fun e _ => (.ok ([5, 9].map Fl.fin), e), fun _ _ _ _ => .ok none, fun e => e⟩
  let rng : Rng Unit ℝ := ⟨fun _ w => (1, w), fun _ _ w => (fun _ => false, w)⟩
  obtain ⟨f0, f1, hf, -⟩ := ExpData.kFold_halves t (Obs.dataset_wf us (by simp [us])) (rng.perm t.nUnits ()).1
  have := (C96_gap_value (heap := Function.update heap 7 ⟨"arm", cfg, .fin 3, init e⟩) (temp := t) (a := 7) (t := t) (f0 := f0) (f1 := f1) ops rng (by simp [cfg]) hf rfl rfl (c := 3)
    (by simp) (xs := [5, 9]) (by simp)).1
  refine ⟨ops, rng, t, _, this.trans ?_⟩
  norm_num [pvar, pmean]

end PaperBandits
end Verif
