import Verif.Lemmas.SCM

/-!
# Sampling with CPDs that only work on parents of the right shape
-/

set_option linter.unusedSectionVars false

namespace Verif
namespace SCM
variable {V β W : Type} [DecidableEq V]

/-- Given parents of the right shapes, the CPD of `v` succeeds and returns an array of the right shape. -/
def TypedAt (scm : SCM V β W) (n : Nat) (Shape : V → Arr β → Prop) (v : V) : Prop :=
  ∀ ps cpd, scm.parents.get? v = some ps → scm.cpds.get? v = some cpd → ∀ (s : V → Arr β) (w : W),
    (∀ p ∈ ps, Shape p (s p)) → ∃ a w', cpd n (ps.map s) w = (.ok a, w') ∧ Shape v a

theorem sampleLoop_typed (scm : SCM V β W) (n : Nat) (Shape : V → Arr β → Prop) (vs : List V) (samples : Dict V (Arr β)) (w : W)
    (hty : ∀ v ∈ vs, scm.TypedAt n Shape v)
    (hpar : ∀ v ∈ vs, scm.parents.get? v ≠ none) (hcpd : ∀ v ∈ vs, scm.cpds.get? v ≠ none)
    (hs : ∀ u a, samples.get? u = some a → Shape u a)
    (hord : ∀ (j : Nat) v ps, vs[j]? = some v → scm.parents.get? v = some ps →
      ∀ p ∈ ps, samples.get? p ≠ none ∨ p ∈ vs.take j) :
    ∃ S' w', scm.sampleLoop n vs samples w = (.ok S', w') ∧ (∀ u a, S'.get? u = some a → Shape u a) ∧
      (∀ u, samples.get? u ≠ none ∨ u ∈ vs → S'.get? u ≠ none) := by
  induction vs generalizing samples w with
  | nil => exact ⟨samples, w, rfl, hs, fun u h => h.elim id (by simp)⟩
  | cons v vs ih =>
    obtain ⟨ps, hp⟩ := Option.ne_none_iff_exists'.mp (hpar v (by simp))
    obtain ⟨cpd, hc⟩ := Option.ne_none_iff_exists'.mp (hcpd v (by simp))
    have hall : ∀ p ∈ ps, samples.get? p ≠ none := by
      intro p hpp
      rcases hord 0 v ps (by simp) hp p hpp with h | h
      · exact h
      · simp at h
    have hany : (ps.any fun p => (samples.get? p).isNone) = false := by
      rw [List.any_eq_false]
      intro p hpp
      simp [hall p hpp]
    have hl := lookupAll_ok samples ps (fun p => (samples.get? p).getD (.d1 [])) (by
      intro p hpp; obtain ⟨a, ha⟩ := Option.ne_none_iff_exists'.mp (hall p hpp); simp [ha])
    obtain ⟨a, w1, ha, hsh⟩ := hty v (by simp) ps cpd hp hc (fun p => (samples.get? p).getD (.d1 [])) w (by
      intro p hpp
      obtain ⟨a, ha⟩ := Option.ne_none_iff_exists'.mp (hall p hpp)
      rw [ha]
      exact hs p a ha)
    obtain ⟨S', w', h1, h2, h3⟩ := ih (samples.set v a) w1 (fun u hu => hty u (by simp [hu])) (fun u hu => hpar u (by simp [hu]))
      (fun u hu => hcpd u (by simp [hu]))
      (by
        intro u b hu
        rw [Dict.get?_set] at hu
        split at hu
        · rename_i e
          simp only [Option.some.injEq] at hu; subst hu; subst e; exact hsh
        · exact hs u b hu)
      (by
        intro j u ps' hj hps' p hpp
        rcases hord (j + 1) u ps' (by simpa using hj) hps' p hpp with h | h
        · left
          rw [Dict.get?_set]
          split <;> simp_all
        · simp only [List.take_succ_cons, List.mem_cons] at h
          rcases h with h | h
          · left; subst h; rw [Dict.get?_set, if_pos rfl]; simp
          · right; exact h)
    refine ⟨S', w', ?_, h2, ?_⟩
    · rw [sampleLoop, hp]
      simp only [hany, hl, hc, ha, h1]
      simp
    · intro u hu
      refine h3 u ?_
      rcases hu with hu | hu
      · left; rw [Dict.get?_set]; split <;> simp_all
      · rcases List.mem_cons.mp hu with rfl | hu
        · left; rw [Dict.get?_set, if_pos rfl]; simp
        · exact .inr hu

theorem sampleLoop_append (scm : SCM V β W) (n : Nat) (us vs : List V) (samples S' : Dict V (Arr β)) (w w' : W)
    (h : scm.sampleLoop n us samples w = (.ok S', w')) :
    scm.sampleLoop n (us ++ vs) samples w = scm.sampleLoop n vs S' w' := by
  induction us generalizing samples w with
  | nil =>
    simp only [sampleLoop, Prod.mk.injEq, Except.ok.injEq] at h
    obtain ⟨rfl, rfl⟩ := h
    rfl
  | cons u us ih =>
    rw [List.cons_append, sampleLoop]
    rw [sampleLoop] at h
    rcases hps : scm.parents.get? u with _ | ps
    · rw [hps] at h; simp at h
    rw [hps] at h
    simp only at h ⊢
    by_cases hany : (ps.any fun p => (samples.get? p).isNone) = true
    · rw [if_pos hany] at h; simp at h
    rw [if_neg hany] at h ⊢
    rcases hpa : lookupAll samples ps with e | pa
    · rw [hpa] at h; simp at h
    rw [hpa] at h
    simp only at h ⊢
    rcases hcpd : scm.cpds.get? u with _ | cpd
    · rw [hcpd] at h; simp at h
    rw [hcpd] at h
    simp only at h ⊢
    rcases hc : cpd n pa w with ⟨e | a, w1⟩
    · rw [hc] at h; simp at h
    rw [hc] at h
    exact ih _ _ h

/-- With CPDs that work on parents of the right shapes, and every variable after its parents, `generate` succeeds when the
covariates have one row per unit. -/
theorem generate_typed (scm : SCM V β W) (n : Nat) (Shape : V → Arr β → Prop) (hty : ∀ v ∈ scm.varNames, scm.TypedAt n Shape v)
    (hv : Valid scm.varNames scm.parents scm.cpds scm.covVariables scm.treatment scm.response)
    (hcov : scm.covVariables ≠ []) (hlen : ∀ v ∈ scm.covVariables, ∀ a, Shape v a → a.len = n) (hord : scm.Ordered) (w : W) :
    ∃ smp w', scm.generate n w = (.ok smp, w') := by
  obtain ⟨S, w1, h1, h2, h3⟩ := sampleLoop_typed scm n Shape scm.varNames [] w hty hv.parents hv.cpds (by simp [Dict.get?])
    (fun j v ps hj hps p hp => Or.inr (hord j v ps hj hps p hp))
  let s : V → Arr β := fun v => (S.get? v).getD (.d1 [])
  have hs : ∀ v ∈ scm.varNames, S.get? v = some (s v) := by
    intro v hv
    obtain ⟨a, ha⟩ := Option.ne_none_iff_exists'.mp (h3 v (.inr hv))
    simp [s, ha]
  obtain ⟨c, hc, -⟩ := columnStack_ok (scm.covVariables.map s) n (by simpa using hcov) (by
    intro a ha
    obtain ⟨v, hv', rfl⟩ := List.mem_map.mp ha
    exact hlen v hv' _ (h2 v _ (hs v (hv.cov v hv'))))
  refine ⟨{ cov := c, exp := s scm.treatment, rsp := s scm.response }, w1, ?_⟩
  unfold generate
  rw [h1]
  simp only
  rw [lookupAll_ok S scm.covVariables s (fun v hv' => hs v (hv.cov v hv')),
    lookupAll_ok S [scm.treatment] s (by simpa using hs _ hv.treatment),
    lookupAll_ok S [scm.response] s (by simpa using hs _ hv.response)]
  simp only [bind, Except.bind, hc, List.map_cons, List.map_nil, pure, Except.pure]

/-- All samples of a run have the right shapes. -/
theorem IsRun.shape {scm : SCM V β W} {n : Nat} {s : V → Arr β} {ws : List W} (h : IsRun scm n s ws) (Shape : V → Arr β → Prop)
    (hty : ∀ v ∈ scm.varNames, scm.TypedAt n Shape v) : ∀ v ∈ scm.varNames, Shape v (s v) := by
  have key : ∀ (j : Nat) v, scm.varNames[j]? = some v → Shape v (s v) := by
    intro j
    induction j using Nat.strongRecOn with
    | _ j ih =>
      intro v hj
      obtain ⟨ps, cpd, w, w', h1, h2, -, -, h5, h6⟩ := h.draw j v hj
      obtain ⟨a, w'', e1, e2⟩ := hty v (List.mem_of_getElem? hj) ps cpd h1 h2 s w (by
        intro p hp
        obtain ⟨i, hi⟩ := List.mem_iff_getElem?.mp (h5 p hp)
        have hij : i < j := by
          by_contra hc
          rw [List.getElem?_eq_none (by simp; omega)] at hi
          simp at hi
        rw [List.getElem?_take_of_lt hij] at hi
        exact ih i hij p hi)
      rw [h6] at e1
      simp only [Prod.mk.injEq, Except.ok.injEq] at e1
      rw [e1.1]
      exact e2
  intro v hv
  obtain ⟨j, hj⟩ := List.mem_iff_getElem?.mp hv
  exact key j v hj

/-- When the CPDs of the variables before `v` work and that of `v` raises on all parents of the right shapes, `generate` raises. -/
theorem generate_fails (scm : SCM V β W) (n : Nat) (Shape : V → Arr β → Prop) (pre post : List V) (v : V) (hvars : scm.varNames = pre ++ v :: post)
    (hty : ∀ u ∈ pre, scm.TypedAt n Shape u) (hv : Valid scm.varNames scm.parents scm.cpds scm.covVariables scm.treatment scm.response)
    (hord : scm.Ordered) (ps : List V) (cpd : CPD β W) (hps : scm.parents.get? v = some ps) (hcpd : scm.cpds.get? v = some cpd) (e : PyErr)
    (hfail : ∀ (s : V → Arr β) (w : W), (∀ p ∈ ps, Shape p (s p)) → ∃ w', cpd n (ps.map s) w = (.error e, w')) (w : W) :
    ∃ w', scm.generate n w = (.error e, w') := by
  have hmem : ∀ u ∈ pre, u ∈ scm.varNames := fun u hu => by rw [hvars]; exact List.mem_append_left _ hu
  obtain ⟨D, w1, h1, h2, h3⟩ := sampleLoop_typed scm n Shape pre [] w hty (fun u hu => hv.parents u (hmem u hu)) (fun u hu => hv.cpds u (hmem u hu))
    (by simp [Dict.get?]) (fun j u us hj hus p hp => by
      right
      have hlt : j < pre.length := by
        by_contra hc; rw [List.getElem?_eq_none (by omega)] at hj; simp at hj
      have := hord j u us (by rw [hvars, List.getElem?_append_left hlt, hj]) hus p hp
      rw [hvars, List.take_append_of_le_length hlt.le] at this
      exact this)
  have hall : ∀ p ∈ ps, D.get? p ≠ none := by
    intro p hp
    refine h3 p (.inr ?_)
    have := hord pre.length v ps (by rw [hvars]; simp) hps p hp
    rw [hvars] at this
    simpa using this
  have hany : (ps.any fun p => (D.get? p).isNone) = false := by
    rw [List.any_eq_false]
    intro p hpp
    simp [hall p hpp]
  have hl := lookupAll_ok D ps (fun p => (D.get? p).getD (.d1 [])) (by
    intro p hpp; obtain ⟨a, ha⟩ := Option.ne_none_iff_exists'.mp (hall p hpp); simp [ha])
  obtain ⟨w', hw'⟩ := hfail (fun p => (D.get? p).getD (.d1 [])) w1 (by
    intro p hpp
    obtain ⟨a, ha⟩ := Option.ne_none_iff_exists'.mp (hall p hpp)
    rw [ha]
    exact h2 p a ha)
  refine ⟨w', ?_⟩
  unfold generate
  rw [hvars, sampleLoop_append _ _ _ _ _ _ _ _ h1, sampleLoop, hps]
  simp [hany, hl, hcpd, hw']

end SCM
end Verif
