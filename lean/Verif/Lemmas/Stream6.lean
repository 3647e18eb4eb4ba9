import Verif.Lemmas.Stream5
import Verif.Lemmas.Stream4

/-!
# Streams of updates with parameters that change when they are evaluated
-/

set_option linter.unusedSectionVars false
set_option linter.unusedSimpArgs false

namespace Verif
namespace Arm

section
variable {E W : Type} {k : ℕ} {cfg : SSConfig (Cell ℝ) ℝ} {ops : EtaOps E (Cell ℝ) ℝ} {rng : Rng W ℝ} {u : ℕ → Obs ℝ} {size : ℕ → ℕ} {δ : Fl ℝ}
  {s : ℕ → ArmState E (Cell ℝ) ℝ} {w : ℕ → W} {ci : ℕ → Fl ℝ × Fl ℝ}

/-- one update of the arm: the nuisance parameter is fitted on the first fold and evaluated on the second -/
theorem stream_update_rel {Rel : E → E → Prop} (hrefl : ∀ e, Rel e e) (htrans : ∀ a b c, Rel a b → Rel b c → Rel a c) (h : Streams k cfg ops rng u size δ s w ci) (hrel : ∀ e d, Rel e (ops.score e d).2) (n : ℕ) :
    ∃ e, ops.fit (s n).eta (Obs.dataset k ((foldIdx rng size w 0 (n + 1)).map u)) = (.ok (), e) ∧ Rel e (s (n + 1)).eta := by
  obtain ⟨d, w1, hd, hup⟩ := h.step n
  obtain ⟨hδ, s1, -, hadd, hest⟩ := ssUpdate_inv hup
  obtain ⟨w', hadd'⟩ := addData_stream h n hd { s n with numPulled := (s n).numPulled + 1, delta := some δ } (stream_split h n).2
  rw [hadd'] at hadd
  simp only [Prod.mk.injEq, true_and] at hadd
  obtain ⟨hs1, -⟩ := hadd
  subst hs1
  generalize (s (n + 1)) = t at hest ⊢
  generalize (ci n).1 = lo at hest
  generalize (ci n).2 = hi at hest
  cases hest with
  | few l f0 e1 a b c d =>
    simp only [Option.some.injEq] at a
    subst a
    simp only [List.getElem?_cons_zero, Option.some.injEq] at b
    subst b
    exact ⟨e1, c, hrefl _⟩
  | enough l' f0 e1 f1' sc1 e2 sc2 e3 lo hi e4 a b c d e f g hnan hi' =>
    simp only [Option.some.injEq] at a
    subst a
    simp only [List.getElem?_cons_zero, Option.some.injEq] at b
    subst b
    refine ⟨e1, c, ?_⟩
    have h1 : Rel e1 e2 := by have := hrel e1 f1'; rw [f] at this; exact this
    have h2 : Rel e2 e3 := by have := hrel e2 f1'; rw [g] at this; exact this
    have h3 : Rel e3 e4 := by
      cases hi' with
      | chi2 h => exact hrefl _
      | burnIn ew h => exact hrefl _
      | finite ew h => exact hrefl _
      | clt sc3 e5 _ hsc => have := hrel e3 f1'; rw [hsc] at this; exact this
    exact htrans _ _ _ h1 (htrans _ _ _ h2 h3)

end

section
variable {E W : Type}

/-- Updates of a CLT or CHI2 arm with blocks of a stream succeed, if the nuisance parameter can be fitted and evaluated on all non-empty datasets. This
holds for any states of the random generator. -/
theorem stream_runs_rel {Rel : E → E → Prop} (hrefl : ∀ e, Rel e e) (htrans : ∀ a b c, Rel a b → Rel b c → Rel a c) {k : ℕ} {cfg : SSConfig (Cell ℝ) ℝ} {ops : EtaOps E (Cell ℝ) ℝ} (rng : Rng W ℝ) {size : ℕ → ℕ} (hsize : ∀ n, 2 ≤ size n)
    {δ : ℝ} (h0 : 0 < δ) (h1 : δ < 1) (halg : cfg.alg = .clt ∨ cfg.alg = .chi2) (hstable : cfg.stable = true)
    {Good : E → Prop} {Fine : Obs ℝ → Prop} (hgr : ∀ e e', Good e → Rel e e' → Good e')
    (hfit : ∀ e, Good e → ∀ us, us ≠ [] → (∀ u ∈ us, Fine u) → ∃ e' b, ops.fit e (Obs.dataset k us) = (.ok (), e') ∧ ops.hasEnough e' = .ok b ∧ Good e' ∧
      (b = true → ∀ e2, Rel e' e2 → ∀ vs, vs ≠ [] → (∀ u ∈ vs, Fine u) →
        ∃ (xs : List ℝ) (e3 : E), ops.score e2 (Obs.dataset k vs) = (.ok (xs.map Fl.fin), e3) ∧ xs.length = vs.length ∧ Rel e2 e3))
    (w : ℕ → W) (u : ℕ → Obs ℝ)
    (ht : ∀ n, ∃ d, cfg.transform d = .ok (Obs.dataset k ((List.range (size n)).map fun i => u (blockStart size n + i))))
    (hcov : ∀ i, (u i).z.length = k) (hfine : ∀ i, Fine (u i)) (s0 : ArmState E (Cell ℝ) ℝ) (hsp : s0.split = none)
    (hnp : s0.numPulled = 0) (hg : Good s0.eta) : ∃ s ci, s 0 = s0 ∧ Streams k cfg ops rng u size (.fin δ) s w ci := by
  have hne : ∀ f, f < 2 → ∀ n, (foldIdx rng size w f (n + 1)).map u ≠ [] := by
    intro f hf n h0
    have := foldIdx_length rng size w (f := f) hf hsize (n + 1)
    rw [List.map_eq_nil_iff.1 h0] at this
    simp at this
  have hfm : ∀ f n, ∀ a ∈ (foldIdx rng size w f n).map u, Fine a := by
    intro f n a ha
    obtain ⟨i, -, rfl⟩ := List.mem_map.1 ha
    exact hfine i
  choose d hd using ht
  let step : ℕ → ArmState E (Cell ℝ) ℝ → ArmState E (Cell ℝ) ℝ := fun n st => (ssUpdate cfg ops realLib rng (d n) (.fin δ) (st, w n)).2.1
  let s : ℕ → ArmState E (Cell ℝ) ℝ := fun n => Nat.rec s0 step n
  let Inv : ℕ → ArmState E (Cell ℝ) ℝ → Prop := fun n st => Good st.eta ∧ ((st.split = none ∧ n = 0) ∨
      st.split = some [Obs.dataset k ((foldIdx rng size w 0 n).map u), Obs.dataset k ((foldIdx rng size w 1 n).map u)])
  have key : ∀ n st, Inv n st → ∃ lo hi st', ssUpdate cfg ops realLib rng (d n) (.fin δ) (st, w n) = (.ok (lo, hi), st', (rng.perm (size n) (w n)).2) ∧ Inv (n + 1) st' := by
    intro n st ⟨hgood, hsplit⟩
    have hadd := addData_block (E := E) (w := w) (rng := rng) (size := size) hstable hcov n (hd n) { st with numPulled := st.numPulled + 1, delta := some (.fin δ) } hsplit
    obtain ⟨hup, -, -⟩ := ssUpdate_after cfg ops realLib rng (d n) (.fin δ) ⟨δ, rfl, h0, h1⟩ st (w n) _ _ hadd
    obtain ⟨e', b, hf, hen, hgood', hsc⟩ := hfit st.eta hgood _ (hne 0 (by omega) n) (hfm 0 (n + 1))
    rcases b with _ | _
    · have hest := estimate_fwd (lib := realLib) (delta := .fin δ) (cfg := cfg) (Estimated.few (s := { st with numPulled := st.numPulled + 1, delta := some (.fin δ), split := some [Obs.dataset k ((foldIdx rng size w 0 (n + 1)).map u), Obs.dataset k ((foldIdx rng size w 1 (n + 1)).map u)] }) _ _ e' rfl rfl hf hen) (rng.perm (size n) (w n)).2
      exact ⟨_, _, _, hup.trans hest, hgood', Or.inr rfl⟩
    · have hv : ∀ (xs : List ℝ), xs.length = ((foldIdx rng size w 1 (n + 1)).map u).length →
          (Fl.mean (sqDev (xs.map Fl.fin) (Fl.mean (xs.map Fl.fin)))).isNan = false ∧ xs ≠ [] := by
        intro xs hlen
        have hx : xs ≠ [] := by
          intro h; rw [h] at hlen
          exact hne 1 (by omega) n (List.length_eq_zero_iff.1 hlen.symm)
        refine ⟨?_, hx⟩
        have := var_fin xs hx
        unfold Fl.var at this
        unfold sqDev
        rw [this]; rfl
      obtain ⟨xs, e2, hxs, hlen, r1⟩ := hsc rfl e' (hrefl _) _ (hne 1 (by omega) n) (hfm 1 (n + 1))
      obtain ⟨ys, e3, hys, hlen2, r2⟩ := hsc rfl e2 r1 _ (hne 1 (by omega) n) (hfm 1 (n + 1))
      obtain ⟨zs, e4, hzs, hlen3, r3⟩ := hsc rfl e3 (htrans _ _ _ r1 r2) _ (hne 1 (by omega) n) (hfm 1 (n + 1))
      have hnan : (Fl.mean (sqDev (ys.map Fl.fin) (Fl.mean (xs.map Fl.fin)))).isNan = false := by
        obtain ⟨-, hx⟩ := hv xs hlen
        obtain ⟨-, hy⟩ := hv ys hlen2
        rw [mean_fin xs hx]
        unfold sqDev
        rw [List.map_map]
        show (Fl.mean (ys.map fun y => Fl.fin ((y - pmean xs) * (y - pmean xs)))).isNan = false
        have := mean_fin (ys.map fun y => (y - pmean xs) * (y - pmean xs)) (by simpa using hy)
        rw [List.map_map] at this
        simp only [Function.comp_def] at this
        rw [this]; rfl
      have hiv : ∃ lo hi e5, Rel e3 e5 ∧ IntervalOf cfg ops realLib (.fin δ) (st.numPulled + 1) (Obs.dataset k ((foldIdx rng size w 1 (n + 1)).map u)) e3
          (Fl.mean (sqDev (ys.map Fl.fin) (Fl.mean (xs.map Fl.fin)))) (Fl.mean (xs.map Fl.fin)) lo hi e5 := by
        rcases halg with halg | halg
        · exact ⟨_, _, e4, r3, .clt _ _ halg hzs⟩
        · exact ⟨_, _, e3, hrefl _, .chi2 halg⟩
      obtain ⟨lo, hi, e5, r5, hiv⟩ := hiv
      have hest := estimate_fwd (Estimated.enough (s := { st with numPulled := st.numPulled + 1, delta := some (.fin δ), split := some [Obs.dataset k ((foldIdx rng size w 0 (n + 1)).map u), Obs.dataset k ((foldIdx rng size w 1 (n + 1)).map u)] }) _ _ e' _ _ e2 _ e3 lo hi e5
        rfl rfl hf hen rfl hxs hys hnan hiv) (rng.perm (size n) (w n)).2
      exact ⟨_, _, _, hup.trans hest, hgr _ _ hgood' (htrans _ _ _ r1 (htrans _ _ _ r2 r5)), Or.inr rfl⟩
  have inv : ∀ n, Inv n (s n) := by
    intro n
    induction n with
    | zero => exact ⟨hg, Or.inl ⟨hsp, rfl⟩⟩
    | succ n ih =>
      obtain ⟨lo, hi, st', h2, h3⟩ := key n _ ih
      have : s (n + 1) = st' := by
        show (ssUpdate cfg ops realLib rng (d n) (.fin δ) (s n, w n)).2.1 = st'
        rw [h2]
      rw [this]; exact h3
  choose lo hi st' h2 h3 using fun n => key n _ (inv n)
  refine ⟨s, fun n => (lo n, hi n), rfl, ⟨hsp, hnp⟩, hstable, hcov, fun n => ⟨d n, (rng.perm (size n) (w n)).2, hd n, ?_⟩⟩
  have : s (n + 1) = st' n := by
    show (ssUpdate cfg ops realLib rng (d n) (.fin δ) (s n, w n)).2.1 = st' n
    rw [h2 n]
  rw [this]
  exact h2 n

end

end Arm
end Verif
