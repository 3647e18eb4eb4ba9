import Verif.Lemmas.Stream

/-!
# Streams of updates that succeed
-/

set_option linter.unusedSectionVars false
set_option linter.unusedSimpArgs false

namespace Verif
namespace Arm
variable {E W : Type}

/-- Updates of a CLT or CHI2 arm with blocks of a stream succeed, if the nuisance parameter can be fitted and evaluated on all non-empty datasets. This
holds for any states of the random generator. -/
theorem stream_runs {k : ℕ} {cfg : SSConfig (Cell ℝ) ℝ} {ops : EtaOps E (Cell ℝ) ℝ} (rng : Rng W ℝ) {size : ℕ → ℕ} (hsize : ∀ n, 2 ≤ size n)
    {δ : ℝ} (h0 : 0 < δ) (h1 : δ < 1) (halg : cfg.alg = .clt ∨ cfg.alg = .chi2) (hstable : cfg.stable = true)
    {Good : E → Prop} {Fine : Obs ℝ → Prop}
    (hfit : ∀ e, Good e → ∀ us, us ≠ [] → (∀ u ∈ us, Fine u) → ∃ e' b, ops.fit e (Obs.dataset k us) = (.ok (), e') ∧ ops.hasEnough e' = .ok b ∧ Good e' ∧
      (b = true → ∀ vs, vs ≠ [] → (∀ u ∈ vs, Fine u) → ∃ xs : List ℝ, ops.score e' (Obs.dataset k vs) = (.ok (xs.map Fl.fin), e') ∧ xs.length = vs.length))
    (w : ℕ → W) (u : ℕ → Obs ℝ)
    (ht : ∀ n, ∃ d, cfg.transform d = .ok (Obs.dataset k ((List.range (size n)).map fun i => u (blockStart size n + i))))
    (hcov : ∀ i, (u i).z.length = k) (hfine : ∀ i, Fine (u i)) (s0 : ArmState E (Cell ℝ) ℝ) (hsp : s0.split = none)
    (hnp : s0.numPulled = 0) (hg : Good s0.eta) : ∃ s ci, s 0 = s0 ∧ Streams k cfg ops rng u size (.fin δ) s w ci := by
  have hne : ∀ f, f < 2 → ∀ n, (foldIdx rng size w f (n + 1)).map u ≠ [] := by
    intro f hf n h0
    have := foldIdx_length rng size w (f := f) hf hsize (n + 1)
    rw [List.map_eq_nil_iff.1 h0] at this
    simp at this
  have hfm : ∀ f n, ∀ a ∈ (foldIdx rng size w f n).map u, Fine a := by
    intro f n a ha
    obtain ⟨i, -, rfl⟩ := List.mem_map.1 ha
    exact hfine i
  choose d hd using ht
  let step : ℕ → ArmState E (Cell ℝ) ℝ → ArmState E (Cell ℝ) ℝ := fun n st => (ssUpdate cfg ops realLib rng (d n) (.fin δ) (st, w n)).2.1
  let s : ℕ → ArmState E (Cell ℝ) ℝ := fun n => Nat.rec s0 step n
  let Inv : ℕ → ArmState E (Cell ℝ) ℝ → Prop := fun n st => Good st.eta ∧ ((st.split = none ∧ n = 0) ∨
      st.split = some [Obs.dataset k ((foldIdx rng size w 0 n).map u), Obs.dataset k ((foldIdx rng size w 1 n).map u)])
  have key : ∀ n st, Inv n st → ∃ lo hi st', ssUpdate cfg ops realLib rng (d n) (.fin δ) (st, w n) = (.ok (lo, hi), st', (rng.perm (size n) (w n)).2) ∧ Inv (n + 1) st' := by
    intro n st ⟨hgood, hsplit⟩
    have hadd := addData_block (E := E) (w := w) (rng := rng) (size := size) hstable hcov n (hd n) { st with numPulled := st.numPulled + 1, delta := some (.fin δ) } hsplit
    obtain ⟨hup, -, -⟩ := ssUpdate_after cfg ops realLib rng (d n) (.fin δ) ⟨δ, rfl, h0, h1⟩ st (w n) _ _ hadd
    obtain ⟨e', b, hf, hen, hgood', hsc⟩ := hfit st.eta hgood _ (hne 0 (by omega) n) (hfm 0 (n + 1))
    rcases b with _ | _
    · have hest := estimate_fwd (lib := realLib) (delta := .fin δ) (cfg := cfg) (Estimated.few (s := { st with numPulled := st.numPulled + 1, delta := some (.fin δ), split := some [Obs.dataset k ((foldIdx rng size w 0 (n + 1)).map u), Obs.dataset k ((foldIdx rng size w 1 (n + 1)).map u)] }) _ _ e' rfl rfl hf hen) (rng.perm (size n) (w n)).2
      exact ⟨_, _, _, hup.trans hest, hgood', Or.inr rfl⟩
    · obtain ⟨xs, hxs, hlen⟩ := hsc rfl _ (hne 1 (by omega) n) (hfm 1 (n + 1))
      have hx : xs ≠ [] := by
        intro h; rw [h] at hlen
        exact hne 1 (by omega) n (List.length_eq_zero_iff.1 hlen.symm)
      have hv : (Fl.mean (sqDev (xs.map Fl.fin) (Fl.mean (xs.map Fl.fin)))).isNan = false := by
        have := var_fin xs hx
        unfold Fl.var at this
        unfold sqDev
        rw [this]; rfl
      have hiv : ∃ lo hi, IntervalOf cfg ops realLib (.fin δ) (st.numPulled + 1) (Obs.dataset k ((foldIdx rng size w 1 (n + 1)).map u)) e'
          (Fl.mean (sqDev (xs.map Fl.fin) (Fl.mean (xs.map Fl.fin)))) (Fl.mean (xs.map Fl.fin)) lo hi e' := by
        rcases halg with halg | halg
        · exact ⟨_, _, .clt _ _ halg hxs⟩
        · exact ⟨_, _, .chi2 halg⟩
      obtain ⟨lo, hi, hiv⟩ := hiv
      have hest := estimate_fwd (Estimated.enough (s := { st with numPulled := st.numPulled + 1, delta := some (.fin δ), split := some [Obs.dataset k ((foldIdx rng size w 0 (n + 1)).map u), Obs.dataset k ((foldIdx rng size w 1 (n + 1)).map u)] }) _ _ e' _ _ e' _ e' lo hi e'
        rfl rfl hf hen rfl hxs hxs hv hiv) (rng.perm (size n) (w n)).2
      exact ⟨_, _, _, hup.trans hest, hgood', Or.inr rfl⟩
  have inv : ∀ n, Inv n (s n) := by
    intro n
    induction n with
    | zero => exact ⟨hg, Or.inl ⟨hsp, rfl⟩⟩
    | succ n ih =>
      obtain ⟨lo, hi, st', h2, h3⟩ := key n _ ih
      have : s (n + 1) = st' := by
        show (ssUpdate cfg ops realLib rng (d n) (.fin δ) (s n, w n)).2.1 = st'
        rw [h2]
      rw [this]; exact h3
  choose lo hi st' h2 h3 using fun n => key n _ (inv n)
  refine ⟨s, fun n => (lo n, hi n), rfl, ⟨hsp, hnp⟩, hstable, hcov, fun n => ⟨d n, (rng.perm (size n) (w n)).2, hd n, ?_⟩⟩
  have : s (n + 1) = st' n := by
    show (ssUpdate cfg ops realLib rng (d n) (.fin δ) (s n, w n)).2.1 = st' n
    rw [h2 n]
  rw [this]
  exact h2 n

end Arm
end Verif
