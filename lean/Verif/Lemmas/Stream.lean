import Verif.Spec.Stream
import Verif.Lemmas.Coverage
import Verif.Props.SafeArm
import Verif.Lemmas.Arms9

/-!
# Arms updated with blocks of a stream: what the folds contain
-/

set_option linter.unusedSectionVars false
set_option linter.unusedSimpArgs false

namespace Verif
open ExpData Arm

theorem gather_map {γ γ' : Type} (f : γ → γ') (is : List Nat) (xs : List γ) : gather is (xs.map f) = (gather is xs).map f := by
  unfold gather
  rw [List.map_filterMap]
  congr 1
  funext i
  simp

theorem gather_range {γ : Type} (f : ℕ → γ) (n : ℕ) (is : List Nat) (h : ∀ i ∈ is, i < n) : gather is ((List.range n).map f) = is.map f := by
  unfold gather
  induction is with
  | nil => rfl
  | cons i is ih =>
    have hi : i < n := h i (by simp)
    rw [List.filterMap_cons, List.getElem?_map, List.getElem?_range hi, ih fun j hj => h j (by simp [hj])]
    rfl

theorem pick_dataset (k : ℕ) (us : List (Obs ℝ)) (is : List Nat) : (Obs.dataset k us).pick is = Obs.dataset k (gather is us) := by
  unfold pick Obs.dataset
  simp [ExpData.new, Arr.onRows, gather_map]

/-- the positions in a block of `n` units that go to fold `f` -/
def foldPos (n : ℕ) (σ : Equiv.Perm (Fin n)) (f : ℕ) : List ℕ := (List.range n).filter fun i => labelAt n 2 σ i == f

theorem foldPos_lt {n : ℕ} {σ : Equiv.Perm (Fin n)} {f i : ℕ} (h : i ∈ foldPos n σ f) : i < n := by
  simpa using List.mem_of_mem_filter h

theorem foldPos_length (n : ℕ) (σ : Equiv.Perm (Fin n)) {f : ℕ} (hf : f < 2) (hn : 2 ≤ n) : 1 ≤ (foldPos n σ f).length := by
  unfold foldPos
  rw [length_filter_label n 2 f (by omega) hf σ]
  omega

theorem foldPos_sorted (n : ℕ) (σ : Equiv.Perm (Fin n)) (f : ℕ) : (foldPos n σ f).Nodup := List.nodup_range.filter _

theorem kFold_dataset (k n : ℕ) (u : ℕ → Obs ℝ) (hu : ∀ i, (u i).z.length = k) (perm : (n : ℕ) → Equiv.Perm (Fin n)) :
    (Obs.dataset k ((List.range n).map u)).kFold 2 (perm _) =
      .ok [Obs.dataset k ((foldPos n (perm n) 0).map u), Obs.dataset k ((foldPos n (perm n) 1).map u)] := by
  have hw : (Obs.dataset k ((List.range n).map u)).WF := Obs.dataset_wf _ (by simp [hu])
  have hn : (Obs.dataset k ((List.range n).map u)).nUnits = n := by rw [Obs.dataset_nUnits]; simp
  have h := kFold_eq (Obs.dataset k ((List.range n).map u)) hw 2 (by omega) (perm _)
  rw [show ((2 : Nat) : Int) = 2 from rfl] at h
  rw [h]
  simp only [List.range_succ, List.range_zero, List.nil_append, List.map_append, List.map_cons, List.map_nil, List.cons_append, pick_dataset]
  have e : ∀ (m f : ℕ), m = n → gather ((List.range m).filter fun i => labelAt m 2 (perm m) i == f) ((List.range n).map u) = (foldPos n (perm n) f).map u := by
    rintro m f rfl
    exact gather_range u m _ fun i hi => foldPos_lt hi
  rw [e _ 0 hn, e _ 1 hn]

/-! ## The positions in the stream that go to a fold -/

/-- the positions, among the first `n` blocks, that go to fold `f` -/
def foldIdx {W : Type} (rng : Rng W ℝ) (size : ℕ → ℕ) (w : ℕ → W) (f : ℕ) : ℕ → List ℕ
  | 0 => []
  | n + 1 => foldIdx rng size w f n ++ (foldPos (size n) (rng.perm (size n) (w n)).1 f).map fun i => blockStart size n + i

section
variable {W : Type} (rng : Rng W ℝ) (size : ℕ → ℕ) (w : ℕ → W)

theorem foldIdx_lt (f n : ℕ) : ∀ i ∈ foldIdx rng size w f n, i < blockStart size n := by
  induction n with
  | zero => simp [foldIdx]
  | succ n ih =>
    intro i hi
    unfold foldIdx at hi
    have hs : blockStart size (n + 1) = blockStart size n + size n := Finset.sum_range_succ _ _
    rw [List.mem_append] at hi
    rcases hi with hi | hi
    · have := ih i hi; omega
    · obtain ⟨j, hj, rfl⟩ := List.mem_map.1 hi
      have := foldPos_lt hj
      omega

theorem foldIdx_nodup (f n : ℕ) : (foldIdx rng size w f n).Nodup := by
  induction n with
  | zero => simp [foldIdx]
  | succ n ih =>
    unfold foldIdx
    rw [List.nodup_append]
    refine ⟨ih, (foldPos_sorted _ _ _).map fun a b h => by simpa using h, ?_⟩
    intro a ha b hb
    have := foldIdx_lt rng size w f n a ha
    obtain ⟨j, hj, rfl⟩ := List.mem_map.1 hb
    omega

theorem foldIdx_length {f : ℕ} (hf : f < 2) (hsize : ∀ n, 2 ≤ size n) (n : ℕ) : n ≤ (foldIdx rng size w f n).length := by
  induction n with
  | zero => simp
  | succ n ih =>
    unfold foldIdx
    rw [List.length_append, List.length_map]
    have := foldPos_length (size n) (rng.perm (size n) (w n)).1 hf (hsize n)
    omega

end

/-- a growing chain of lists lists the values of one sequence -/
theorem chain_enumerated (L : ℕ → List ℕ) (hpre : ∀ n, L n <+: L (n + 1)) (hlen : ∀ n, n ≤ (L n).length) (hnd : ∀ n, (L n).Nodup) :
    ∃ e : ℕ → ℕ, Function.Injective e ∧ ∀ n, L n = (List.range (L n).length).map e := by
  have hmono : ∀ m n, m ≤ n → L m <+: L n := fun m n h => Nat.le_induction (List.prefix_refl _) (fun n _ ih => ih.trans (hpre n)) n h
  have hget : ∀ m n i, i < (L m).length → i < (L n).length → (L m).getD i 0 = (L n).getD i 0 := by
    have key : ∀ m n i, m ≤ n → i < (L m).length → (L m).getD i 0 = (L n).getD i 0 := by
      intro m n i h hi
      obtain ⟨t, ht⟩ := hmono m n h
      rw [← ht, List.getD_append _ _ _ _ hi]
    intro m n i h1 h2
    rcases le_total m n with h | h
    · exact key m n i h h1
    · exact (key n m i h h2).symm
  have e : ∀ n, L n = (List.range (L n).length).map fun i => (L (i + 1)).getD i 0 := by
    intro n
    apply List.ext_getElem
    · simp
    · intro i h1 h2
      rw [List.getElem_map, List.getElem_range, ← hget n (i + 1) i h1 (hlen (i + 1)), List.getD_eq_getElem _ _ h1]
  refine ⟨fun i => (L (i + 1)).getD i 0, ?_, e⟩
  intro i j hij
  have hi : i < (L (max i j + 1)).length := lt_of_lt_of_le (by omega) (hlen _)
  have hj : j < (L (max i j + 1)).length := lt_of_lt_of_le (by omega) (hlen _)
  have h1 : (L (i + 1)).getD i 0 = (L (max i j + 1)).getD i 0 := hget _ _ i (hlen _) hi
  have h2 : (L (j + 1)).getD j 0 = (L (max i j + 1)).getD j 0 := hget _ _ j (hlen _) hj
  simp only at hij
  rw [h1, h2, List.getD_eq_getElem _ _ hi, List.getD_eq_getElem _ _ hj] at hij
  exact (hnd _).getElem_inj_iff.1 hij

/-! ## The folds of an arm -/

section
variable {E W : Type} {k : ℕ} {cfg : SSConfig (Cell ℝ) ℝ} {ops : EtaOps E (Cell ℝ) ℝ} {rng : Rng W ℝ} {u : ℕ → Obs ℝ} {size : ℕ → ℕ}
  {δ : Fl ℝ} {s : ℕ → ArmState E (Cell ℝ) ℝ} {w : ℕ → W} {ci : ℕ → Fl ℝ × Fl ℝ}

/-- `addData` with block `n` of a stream, with any generator that shuffles the block as `rng` does -/
theorem addData_any (hstable : cfg.stable = true) (hcov : ∀ i, (u i).z.length = k) (n : ℕ) {d : ExpData (Cell ℝ)}
    (hd : cfg.transform d = .ok (Obs.dataset k ((List.range (size n)).map fun i => u (blockStart size n + i)))) (st : ArmState E (Cell ℝ) ℝ)
    (hst : (st.split = none ∧ n = 0) ∨
      st.split = some [Obs.dataset k ((foldIdx rng size w 0 n).map u), Obs.dataset k ((foldIdx rng size w 1 n).map u)])
    {W' : Type} (rng' : Rng W' ℝ) (x : W') (hx : (rng'.perm (size n) x).1 = (rng.perm (size n) (w n)).1) :
    addData cfg.transform cfg.stable rng' d (st, x) =
      (.ok (), { st with split := some [Obs.dataset k ((foldIdx rng size w 0 (n + 1)).map u), Obs.dataset k ((foldIdx rng size w 1 (n + 1)).map u)] },
        (rng'.perm (size n) x).2) := by
  have hk := kFold_dataset k (size n) (fun i => u (blockStart size n + i)) (fun i => hcov _) fun m => (rng'.perm m x).1
  have hfold : transformAndFold (E := E) cfg.transform rng' d (st, x) =
      (.ok [Obs.dataset k ((foldPos (size n) (rng'.perm (size n) x).1 0).map fun i => u (blockStart size n + i)),
        Obs.dataset k ((foldPos (size n) (rng'.perm (size n) x).1 1).map fun i => u (blockStart size n + i))], st, (rng'.perm (size n) x).2) := by
    have hn : (Obs.dataset k ((List.range (size n)).map fun i => u (blockStart size n + i))).nUnits = size n := by rw [Obs.dataset_nUnits]; simp
    simp only [transformAndFold, hd]
    rw [hk, show (rng'.perm (Obs.dataset k ((List.range (size n)).map fun i => u (blockStart size n + i))).nUnits x).2 = (rng'.perm (size n) x).2 from by rw [hn]]
  rw [hx] at hfold
  unfold addData
  rw [Py.bind_ok hfold, Py.bind_ok (Py.get_apply _)]
  simp only [hstable, Bool.and_true]
  rcases hst with ⟨h0, rfl⟩ | h0
  · simp only [h0, Option.isSome_none, Bool.false_eq_true, if_false, Py.modify_apply, foldIdx, List.nil_append, List.map_map, Function.comp_def]
  · simp only [h0, Option.isSome_some, if_true, appendFolds]
    rw [append_dataset _ _ (by simp [hcov]) (by simp [hcov])]
    dsimp only
    rw [append_dataset _ _ (by simp [hcov]) (by simp [hcov])]
    simp only [foldIdx, List.map_append, List.map_map, Function.comp_def]

/-- `addData` with block `n` of a stream -/
theorem addData_block (hstable : cfg.stable = true) (hcov : ∀ i, (u i).z.length = k) (n : ℕ) {d : ExpData (Cell ℝ)}
    (hd : cfg.transform d = .ok (Obs.dataset k ((List.range (size n)).map fun i => u (blockStart size n + i)))) (st : ArmState E (Cell ℝ) ℝ)
    (hst : (st.split = none ∧ n = 0) ∨
      st.split = some [Obs.dataset k ((foldIdx rng size w 0 n).map u), Obs.dataset k ((foldIdx rng size w 1 n).map u)]) :
    addData cfg.transform cfg.stable rng d (st, w n) =
      (.ok (), { st with split := some [Obs.dataset k ((foldIdx rng size w 0 (n + 1)).map u), Obs.dataset k ((foldIdx rng size w 1 (n + 1)).map u)] },
        (rng.perm (size n) (w n)).2) := addData_any hstable hcov n hd st hst rng (w n) rfl

/-- the state of an arm between `addData` and the estimation -/
theorem addData_stream (h : Streams k cfg ops rng u size δ s w ci) (n : ℕ) {d : ExpData (Cell ℝ)}
    (hd : cfg.transform d = .ok (Obs.dataset k ((List.range (size n)).map fun i => u (blockStart size n + i)))) (st : ArmState E (Cell ℝ) ℝ)
    (hst : (st.split = none ∧ n = 0) ∨
      st.split = some [Obs.dataset k ((foldIdx rng size w 0 n).map u), Obs.dataset k ((foldIdx rng size w 1 n).map u)]) :
    ∃ w', addData cfg.transform cfg.stable rng d (st, w n) =
      (.ok (), { st with split := some [Obs.dataset k ((foldIdx rng size w 0 (n + 1)).map u), Obs.dataset k ((foldIdx rng size w 1 (n + 1)).map u)] }, w') :=
  ⟨_, addData_block h.stable h.covariates n hd st hst⟩

theorem stream_split (h : Streams k cfg ops rng u size δ s w ci) (n : ℕ) : (s n).numPulled = n ∧
    (((s n).split = none ∧ n = 0) ∨
      (s n).split = some [Obs.dataset k ((foldIdx rng size w 0 n).map u), Obs.dataset k ((foldIdx rng size w 1 n).map u)]) := by
  induction n with
  | zero => exact ⟨h.fresh.2, Or.inl ⟨h.fresh.1, rfl⟩⟩
  | succ n ih =>
    obtain ⟨d, w1, hd, hup⟩ := h.step n
    obtain ⟨hδ, -⟩ := ssUpdate_inv hup
    obtain ⟨w', hadd⟩ := addData_stream h n hd { s n with numPulled := (s n).numPulled + 1, delta := some δ } ih.2
    obtain ⟨-, h1, h2⟩ := ssUpdate_after cfg ops realLib rng d δ hδ (s n) (w n) w' _ hadd
    rw [hup] at h1 h2
    exact ⟨by rw [h2, ih.1], Or.inr h1⟩

/-- update `n` of a stream, with any generator that shuffles the block as `rng` does -/
theorem stream_step (h : Streams k cfg ops rng u size δ s w ci) (n : ℕ) {d : ExpData (Cell ℝ)}
    (hd : cfg.transform d = .ok (Obs.dataset k ((List.range (size n)).map fun i => u (blockStart size n + i))))
    {W' : Type} (rng' : Rng W' ℝ) (x : W') (hx : (rng'.perm (size n) x).1 = (rng.perm (size n) (w n)).1) :
    ssUpdate cfg ops realLib rng' d δ (s n, x) = (.ok (ci n), s (n + 1), (rng'.perm (size n) x).2) := by
  obtain ⟨d0, w1, hd0, hup⟩ := h.step n
  obtain ⟨hδ, s1, -, hadd, hest⟩ := ssUpdate_inv hup
  obtain ⟨w', hadd'⟩ := addData_stream h n hd0 { s n with numPulled := (s n).numPulled + 1, delta := some δ } (stream_split h n).2
  rw [hadd'] at hadd
  simp only [Prod.mk.injEq, true_and] at hadd
  obtain ⟨rfl, -⟩ := hadd
  have hany := addData_any h.stable h.covariates n hd { s n with numPulled := (s n).numPulled + 1, delta := some δ } (stream_split h n).2 rng' x hx
  obtain ⟨e, -⟩ := ssUpdate_after cfg ops realLib rng' d δ hδ (s n) x _ _ hany
  rw [e]
  exact estimate_fwd hest _

/-- one update of the arm: the nuisance parameter is fitted on the first fold and evaluated on the second -/
theorem stream_update (h : Streams k cfg ops rng u size δ s w ci) (hpure : ∀ e d, (ops.score e d).2 = e) (n : ℕ) :
    ∃ e, ops.fit (s n).eta (Obs.dataset k ((foldIdx rng size w 0 (n + 1)).map u)) = (.ok (), e) ∧ (s (n + 1)).eta = e := by
  obtain ⟨d, w1, hd, hup⟩ := h.step n
  obtain ⟨hδ, s1, -, hadd, hest⟩ := ssUpdate_inv hup
  obtain ⟨w', hadd'⟩ := addData_stream h n hd { s n with numPulled := (s n).numPulled + 1, delta := some δ } (stream_split h n).2
  rw [hadd'] at hadd
  simp only [Prod.mk.injEq, true_and] at hadd
  obtain ⟨hs1, -⟩ := hadd
  subst hs1
  generalize (s (n + 1)) = t at hest ⊢
  generalize (ci n).1 = lo at hest
  generalize (ci n).2 = hi at hest
  cases hest with
  | few l f0 e1 a b c d =>
    simp only [Option.some.injEq] at a
    subst a
    simp only [List.getElem?_cons_zero, Option.some.injEq] at b
    subst b
    exact ⟨e1, c, rfl⟩
  | enough l' f0 e1 f1' sc1 e2 sc2 e3 lo hi e4 a b c d e f g hnan hi' =>
    simp only [Option.some.injEq] at a
    subst a
    simp only [List.getElem?_cons_zero, Option.some.injEq] at b
    subst b
    refine ⟨e1, c, ?_⟩
    have h1 : e2 = e1 := by have := hpure e1 f1'; rw [f] at this; exact this
    have h2 : e3 = e2 := by have := hpure e2 f1'; rw [g] at this; exact this
    have h3 : e4 = e3 := by
      cases hi' with
      | chi2 h => rfl
      | burnIn ew h => rfl
      | finite ew h => rfl
      | clt sc3 e5 _ hsc => have := hpure e3 f1'; rw [hsc] at this; exact this
    simp [h1, h2, h3]

end
end Verif
