import Verif.Spec.SCM
import Verif.Lemmas.Tabular
import Verif.Lemmas.Data2

set_option linter.unusedSectionVars false

namespace Verif
namespace SCM
variable {V β W : Type} [DecidableEq V]

theorem lookupAll_ok {A : Type} (samples : Dict V A) (ps : List V) (s : V → A)
    (h : ∀ p ∈ ps, samples.get? p = some (s p)) : lookupAll samples ps = .ok (ps.map s) := by
  induction ps with
  | nil => rfl
  | cons p ps ih =>
    rw [lookupAll, h p (by simp), ih (fun q hq => h q (by simp [hq]))]
    rfl

theorem sampleLoop_run (scm : SCM V β W) (n : Nat) (vs : List V) (samples S' : Dict V (Arr β)) (w w' : W)
    (hnd : vs.Nodup) (hnew : ∀ v ∈ vs, samples.get? v = none)
    (h : scm.sampleLoop n vs samples w = (.ok S', w')) :
    (∀ u a, samples.get? u = some a → S'.get? u = some a) ∧
    (∀ v ∈ vs, S'.get? v ≠ none) ∧
    ∃ ws : List W, ws.length = vs.length + 1 ∧ ws[0]? = some w ∧ ws[vs.length]? = some w' ∧
      ∀ (j : Nat) v, vs[j]? = some v → ∃ ps cpd wj wj' a,
        scm.parents.get? v = some ps ∧ scm.cpds.get? v = some cpd ∧ ws[j]? = some wj ∧ ws[j + 1]? = some wj' ∧
        (∀ p ∈ ps, samples.get? p ≠ none ∨ p ∈ vs.take j) ∧ S'.get? v = some a ∧
        ∃ pa, pa = (ps.map fun p => (S'.get? p).getD (.d1 [])) ∧ cpd n pa wj = (.ok a, wj') := by
  induction vs generalizing samples w with
  | nil =>
    simp only [sampleLoop, Prod.mk.injEq, Except.ok.injEq] at h
    obtain ⟨rfl, rfl⟩ := h
    exact ⟨fun _ _ h => h, by simp, [w], by simp, by simp, by simp, by simp⟩
  | cons v vs ih =>
    rw [sampleLoop] at h
    cases hp : scm.parents.get? v with
    | none => rw [hp] at h; simp at h
    | some ps =>
      rw [hp] at h
      simp only at h
      split at h
      · simp at h
      · rename_i hall
        have hall' : ∀ p ∈ ps, ∃ a, samples.get? p = some a := by
          intro p hpp
          simp only [List.any_eq_true, not_exists, not_and, Option.isNone_iff_eq_none] at hall
          exact Option.ne_none_iff_exists'.mp (hall p hpp)
        have hl := lookupAll_ok samples ps (fun p => (samples.get? p).getD (.d1 [])) (by
          intro p hpp; obtain ⟨a, ha⟩ := hall' p hpp; simp [ha])
        rw [hl] at h
        simp only at h
        cases hc : scm.cpds.get? v with
        | none => rw [hc] at h; simp at h
        | some cpd =>
          rw [hc] at h
          simp only at h
          rcases hr : cpd n (ps.map fun p => (samples.get? p).getD (.d1 [])) w with ⟨r, w1⟩
          rw [hr] at h
          cases r with
          | error e => simp at h
          | ok a =>
            simp only at h
            have hv : v ∉ vs := (List.nodup_cons.mp hnd).1
            obtain ⟨i1, i2, ws, i3, i4, i5, i6⟩ := ih (samples.set v a) w1 (List.nodup_cons.mp hnd).2 (by
              intro u hu
              rw [Dict.get?_set, if_neg (by rintro rfl; exact hv hu)]
              exact hnew u (by simp [hu])) h
            have hva : S'.get? v = some a := i1 v a (by rw [Dict.get?_set, if_pos rfl])
            have hold : ∀ u b, samples.get? u = some b → S'.get? u = some b := by
              intro u b hu
              apply i1
              rw [Dict.get?_set, if_neg]
              · exact hu
              · rintro rfl
                rw [hnew v (by simp)] at hu; simp at hu
            refine ⟨hold, ?_, w :: ws, by simp [i3], by simp, by simpa using i5, ?_⟩
            · intro u hu
              rcases List.mem_cons.mp hu with rfl | hu
              · rw [hva]; simp
              · exact i2 u hu
            · intro j u hj
              cases j with
              | zero =>
                simp only [List.getElem?_cons_zero, Option.some.injEq] at hj
                subst hj
                refine ⟨ps, cpd, w, w1, a, hp, hc, rfl, by simpa using i4, ?_, hva, _, rfl, ?_⟩
                · intro p hpp
                  obtain ⟨b, hb⟩ := hall' p hpp
                  left; rw [hb]; simp
                · rw [← hr]
                  congr 1
                  apply List.map_congr_left
                  intro p hpp
                  obtain ⟨b, hb⟩ := hall' p hpp
                  rw [hb, hold p b hb]
              | succ j =>
                simp only [List.getElem?_cons_succ] at hj
                obtain ⟨ps', cpd', wj, wj', a', k1, k2, k3, k4, k5, k6, k7⟩ := i6 j u hj
                refine ⟨ps', cpd', wj, wj', a', k1, k2, by simpa using k3, by simpa using k4, ?_, k6, k7⟩
                intro p hpp
                rcases k5 p hpp with h1 | h1
                · rw [Dict.get?_set] at h1
                  split at h1
                  · rename_i e; right; subst e; simp
                  · left; exact h1
                · right; simp [h1]

theorem sampleLoop_success (scm : SCM V β W) (n : Nat) (htot : scm.TotalCpds n)
    (vs : List V) (samples : Dict V (Arr β)) (w : W)
    (hpar : ∀ v ∈ vs, scm.parents.get? v ≠ none) (hcpd : ∀ v ∈ vs, scm.cpds.get? v ≠ none)
    (hs : ∀ u a, samples.get? u = some a → a.len = n ∧ a.WF)
    (hord : ∀ (j : Nat) v ps, vs[j]? = some v → scm.parents.get? v = some ps →
      ∀ p ∈ ps, samples.get? p ≠ none ∨ p ∈ vs.take j) :
    ∃ S' w', scm.sampleLoop n vs samples w = (.ok S', w') ∧
      (∀ u a, S'.get? u = some a → a.len = n ∧ a.WF) := by
  induction vs generalizing samples w with
  | nil => exact ⟨samples, w, rfl, hs⟩
  | cons v vs ih =>
    obtain ⟨ps, hp⟩ := Option.ne_none_iff_exists'.mp (hpar v (by simp))
    obtain ⟨cpd, hc⟩ := Option.ne_none_iff_exists'.mp (hcpd v (by simp))
    have hall : ∀ p ∈ ps, samples.get? p ≠ none := by
      intro p hpp
      rcases hord 0 v ps (by simp) hp p hpp with h | h
      · exact h
      · simp at h
    have hany : (ps.any fun p => (samples.get? p).isNone) = false := by
      rw [List.any_eq_false]
      intro p hpp
      simp [hall p hpp]
    have hl := lookupAll_ok samples ps (fun p => (samples.get? p).getD (.d1 [])) (by
      intro p hpp; obtain ⟨a, ha⟩ := Option.ne_none_iff_exists'.mp (hall p hpp); simp [ha])
    obtain ⟨a, w1, ha, han, haw⟩ := htot v cpd hc (ps.map fun p => (samples.get? p).getD (.d1 [])) w
    obtain ⟨S', w', h1, h2⟩ := ih (samples.set v a) w1 (fun u hu => hpar u (by simp [hu])) (fun u hu => hcpd u (by simp [hu]))
      (by
        intro u b hu
        rw [Dict.get?_set] at hu
        split at hu
        · simp only [Option.some.injEq] at hu; subst hu; exact ⟨han, haw⟩
        · exact hs u b hu)
      (by
        intro j u ps' hj hps' p hpp
        rcases hord (j + 1) u ps' (by simpa using hj) hps' p hpp with h | h
        · left
          rw [Dict.get?_set]
          split <;> simp_all
        · simp only [List.take_succ_cons, List.mem_cons] at h
          rcases h with h | h
          · left; subst h; rw [Dict.get?_set, if_pos rfl]; simp
          · right; exact h)
    refine ⟨S', w', ?_, h2⟩
    rw [sampleLoop, hp]
    simp only [hany, hl, hc, ha, h1]
    simp

/-- an unordered variable list is rejected with `ValueError` as soon as CPDs do not raise themselves -/
theorem sampleLoop_unordered (scm : SCM V β W) (n : Nat) (htot : scm.TotalCpds n)
    (vs : List V) (samples : Dict V (Arr β)) (w : W)
    (hpar : ∀ v ∈ vs, scm.parents.get? v ≠ none) (hcpd : ∀ v ∈ vs, scm.cpds.get? v ≠ none)
    (hbad : ∃ (j : Nat) (v : V) (ps : List V) (p : V), vs[j]? = some v ∧ scm.parents.get? v = some ps ∧
      p ∈ ps ∧ samples.get? p = none ∧ p ∉ vs.take j) :
    (scm.sampleLoop n vs samples w).1 = .error .valueError := by
  induction vs generalizing samples w with
  | nil => obtain ⟨j, v, ps, p, h, _⟩ := hbad; simp at h
  | cons v vs ih =>
    obtain ⟨ps, hp⟩ := Option.ne_none_iff_exists'.mp (hpar v (by simp))
    obtain ⟨cpd, hc⟩ := Option.ne_none_iff_exists'.mp (hcpd v (by simp))
    by_cases hany : (ps.any fun p => (samples.get? p).isNone) = true
    · rw [sampleLoop, hp]; simp only [hany, if_true]
    · have hall : ∀ p ∈ ps, samples.get? p ≠ none := by
        intro p hpp
        simp only [List.any_eq_true, not_exists, not_and, Option.isNone_iff_eq_none] at hany
        exact hany p hpp
      have hl := lookupAll_ok samples ps (fun p => (samples.get? p).getD (.d1 [])) (by
        intro p hpp; obtain ⟨a, ha⟩ := Option.ne_none_iff_exists'.mp (hall p hpp); simp [ha])
      obtain ⟨a, w1, ha, han, haw⟩ := htot v cpd hc (ps.map fun p => (samples.get? p).getD (.d1 [])) w
      have := ih (samples.set v a) w1 (fun u hu => hpar u (by simp [hu])) (fun u hu => hcpd u (by simp [hu])) (by
        obtain ⟨j, u, ps', p, h1, h2, h3, h4, h5⟩ := hbad
        cases j with
        | zero =>
          simp only [List.getElem?_cons_zero, Option.some.injEq] at h1
          subst h1
          rw [hp] at h2
          obtain rfl := Option.some.inj h2
          exact absurd h4 (hall p h3)
        | succ j =>
          simp only [List.take_succ_cons, List.mem_cons, not_or] at h5
          refine ⟨j, u, ps', p, by simpa using h1, h2, h3, ?_, h5.2⟩
          rw [Dict.get?_set, if_neg (fun e => h5.1 e.symm)]
          exact h4)
      rw [sampleLoop, hp]
      simp only [hany, hl, hc, ha]
      simpa using this

theorem hcat_length (a b : List (List β)) : (hcat a b).length = min a.length b.length := by simp [hcat]

theorem asRows_length (a : Arr β) : (asRows a).length = a.len := by cases a <;> simp [asRows, Arr.len]

theorem asRows_getElem? (a : Arr β) (i : Nat) : (asRows a)[i]? = a.row? i := by
  cases a <;> simp [asRows, Arr.row?]

theorem foldl_hcat (as : List (List (List β))) (a : List (List β)) (n : Nat) (ha : a.length = n)
    (has : ∀ b ∈ as, b.length = n) (i : Nat) (hi : i < n) :
    (as.foldl hcat a).length = n ∧
    (as.foldl hcat a)[i]? = some (((a :: as).map fun b => (b[i]?).getD []).flatten) := by
  induction as generalizing a with
  | nil => simp [ha, hi]
  | cons b as ih =>
    have hb : b.length = n := has b (by simp)
    have := ih (hcat a b) (by rw [hcat_length, ha, hb]; simp) (fun c hc => has c (by simp [hc]))
    refine ⟨this.1, ?_⟩
    rw [List.foldl_cons, this.2]
    have h1 : (hcat a b)[i]? = some (a[i]'(by omega) ++ b[i]'(by omega)) := by
      simp [hcat, ha, hb, hi]
    have h2 : a[i]? = some (a[i]'(by omega)) := List.getElem?_eq_getElem (by omega)
    have h3 : b[i]? = some (b[i]'(by omega)) := List.getElem?_eq_getElem (by omega)
    simp [h1, h2, h3]

theorem columnStack_ok (as : List (Arr β)) (n : Nat) (hne : as ≠ []) (hlen : ∀ a ∈ as, a.len = n) :
    ∃ c, columnStack as = .ok c ∧ c.nFeatures = (as.map Arr.nFeatures).sum ∧ c.isD1 = false ∧ c.len = n ∧
      ∀ i, i < n → c.row? i = some ((as.map fun a => (a.row? i).getD []).flatten) := by
  obtain ⟨a, as, rfl⟩ := List.exists_cons_of_ne_nil hne
  have hb : (as.any fun b => decide (b.len ≠ a.len)) = false := by
    rw [List.any_eq_false]
    intro b hb
    have h1 := hlen a (by simp)
    have h2 := hlen b (by simp [hb])
    simp [h1, h2]
  refine ⟨_, by simp only [columnStack, hb]; rfl, rfl, rfl, ?_, ?_⟩
  · simp only [Arr.len]
    clear hb hne
    have : ∀ (l : List (List (List β))) (x : List (List β)), x.length = n → (∀ y ∈ l, y.length = n) → (l.foldl hcat x).length = n := by
      intro l
      induction l with
      | nil => intro x hx _; exact hx
      | cons y l ih =>
        intro x hx hy
        exact ih (hcat x y) (by rw [hcat_length, hx, hy y (by simp)]; simp) (fun z hz => hy z (by simp [hz]))
    apply this
    · rw [asRows_length]; exact hlen a (by simp)
    · intro y hy
      obtain ⟨b, hb, rfl⟩ := List.mem_map.mp hy
      rw [asRows_length]; exact hlen b (by simp [hb])
  · intro i hi
    have := (foldl_hcat (as.map asRows) (asRows a) n (by rw [asRows_length]; exact hlen a (by simp)) (by
      intro y hy
      obtain ⟨b, hb, rfl⟩ := List.mem_map.mp hy
      rw [asRows_length]; exact hlen b (by simp [hb])) i hi).2
    show ((as.map asRows).foldl hcat (asRows a))[i]? = _
    rw [this]
    simp only [List.map_cons, List.map_map, asRows_getElem?, Function.comp_def]

theorem columnStack_inv (as : List (Arr β)) (c : Arr β) (h : columnStack as = .ok c) :
    ∃ n, as ≠ [] ∧ ∀ a ∈ as, a.len = n := by
  cases as with
  | nil => simp [columnStack] at h
  | cons a as =>
    rw [columnStack] at h
    by_cases hb : (as.any fun b => decide (b.len ≠ a.len)) = true
    · rw [if_pos hb] at h; simp at h
    · clear h
      refine ⟨a.len, by simp, ?_⟩
      intro b hb'
      rcases List.mem_cons.mp hb' with rfl | hb'
      · rfl
      · by_contra hne
        exact hb (List.any_eq_true.mpr ⟨b, hb', by simpa using hne⟩)

end SCM
end Verif
