import Verif.Lemmas.Data

namespace Verif
namespace ExpData
variable {β : Type}

/-- positions of a slice -/
def sliceIdx (n s e : Nat) : List Nat := sliceList s e (List.range n)

theorem sliceList_map {γ δ : Type} (f : γ → δ) (s e : Nat) (l : List γ) :
    sliceList s e (l.map f) = (sliceList s e l).map f := by
  simp [sliceList, List.map_take, List.map_drop]

theorem mem_sliceIdx_lt {n s e i : Nat} (h : i ∈ sliceIdx n s e) : i < n := by
  have := List.mem_of_mem_drop (List.mem_of_mem_take h)
  simpa using this

theorem range_map_getElem? {γ : Type} (xs : List γ) :
    (List.range xs.length).map (xs[·]?) = xs.map some := by
  apply List.ext_getElem?
  intro i
  by_cases hi : i < xs.length
  · simp [hi]
  · simp [hi]

theorem gather_sliceIdx {γ : Type} (s e : Nat) (xs : List γ) :
    gather (sliceIdx xs.length s e) xs = sliceList s e xs := by
  have h1 : (gather (sliceIdx xs.length s e) xs).map some = (sliceList s e xs).map some := by
    rw [gather_eq_map _ _ (fun i hi => mem_sliceIdx_lt hi), ← sliceList_map, sliceIdx,
      ← sliceList_map, range_map_getElem?]
  exact (List.map_injective_iff.mpr (Option.some_injective _)) h1

theorem slice_eq_pick (d : ExpData β) (hd : d.WF) (s e : Nat) :
    d.slice s e = .ok (d.pick (sliceIdx d.nUnits s e)) := by
  obtain ⟨⟨a, ha, hwf, hn, hf⟩, he, hr⟩ := hd
  have h1 : a.onRows (sliceList s e) = a.onRows (gather (sliceIdx d.nUnits s e)) := by
    cases a with
    | d1 xs => simp only [Arr.onRows]; rw [hn]; simp only [Arr.len]; rw [gather_sliceIdx]
    | d2 c xs => simp only [Arr.onRows]; rw [hn]; simp only [Arr.len]; rw [gather_sliceIdx]
  have h2 : ∀ o : Option (List β), (∀ e, o = some e → e.length = d.nUnits) →
      o.map (sliceList s e) = o.map (gather (sliceIdx d.nUnits s e)) := by
    intro o ho
    cases o with
    | none => rfl
    | some l => simp only [Option.map_some]; rw [← ho l rfl, gather_sliceIdx]
  simp only [slice, ha, pick, Option.map_some]
  rw [h1, h2 _ he, h2 _ hr]

theorem sliceIdx_eq_range' (n s e : Nat) :
    sliceIdx n s e = List.range' (min s n) (min e n - min s n) := by
  apply List.ext_getElem?
  intro i
  simp only [sliceIdx, sliceList, List.getElem?_take, List.getElem?_drop]
  by_cases h1 : i < e - s
  · simp only [h1, if_true]
    by_cases h2 : s + i < n
    · have : i < min e n - min s n := by omega
      simp [h2, this]; omega
    · have : ¬ i < min e n - min s n := by omega
      simp [h2, this]
  · have : ¬ i < min e n - min s n := by omega
    simp [h1, this]

theorem pick_congr_append (d : ExpData β) (is js : List Nat) :
    (d.pick is).append (d.pick js) = match d.cov with
      | none => (d.pick is).append (d.pick js)
      | some _ => (.ok (), d.pick (is ++ js)) := by
  cases h : d.cov with
  | none => rfl
  | some a =>
    have hg : ∀ {γ : Type} (xs : List γ), gather is xs ++ gather js xs = gather (is ++ js) xs := by
      intro γ xs; simp [gather]
    cases a with
    | d1 xs =>
      cases hE : d.exp <;> cases hR : d.rsp <;>
        simp [append, pick, new, h, hE, hR, catCov, Arr.onRows, Arr.concat, Arr.nFeatures, Arr.len, hg]
    | d2 c xs =>
      cases hE : d.exp <;> cases hR : d.rsp <;>
        simp [append, pick, new, h, hE, hR, catCov, Arr.onRows, Arr.concat, Arr.nFeatures, Arr.len, hg]

theorem pick_all (d : ExpData β) (hd : d.WF) : d.pick (List.range d.nUnits) = d := by
  have hs := pick_isSelection d hd (List.range d.nUnits) (by simp)
  refine ext_units hd hs.wf hs.kind (by simpa using hs.size) ?_
  intro i hi
  have := (hs.unit i (by simpa using hi)).2
  simpa using this

/-- what a successful append computes -/
theorem append_isConcat (d e : ExpData β) (hd : d.WF) (he : e.WF) (h : Appendable d e) :
    ∃ r, d.append e = (.ok (), r) ∧ IsConcat d e r := by
  obtain ⟨⟨a, ha, hwfa, hna, hfa⟩, hea, hra⟩ := hd
  obtain ⟨⟨b, hb, hwfb, hnb, hfb⟩, heb, hrb⟩ := he
  have hnf := h.nFeatures
  have hrank := h.rank
  rw [ha, hb] at hrank
  obtain ⟨c, hc, hcl, hcf, hcw, hck, hrowl, hrowr⟩ : ∃ c, a.concat b = .ok c ∧ c.len = a.len + b.len ∧
      c.nFeatures = a.nFeatures ∧ c.WF ∧ c.isD1 = a.isD1 ∧ (∀ i, i < a.len → c.row? i = a.row? i) ∧
      (∀ j, j < b.len → c.row? (a.len + j) = b.row? j) := by
    cases a with
    | d1 xs =>
      cases b with
      | d2 _ _ => simp [Arr.isD1] at hrank
      | d1 ys =>
        refine ⟨.d1 (xs ++ ys), rfl, by simp [Arr.len], rfl, trivial, rfl, ?_, ?_⟩
        · intro i hi; simp only [Arr.row?]; rw [List.getElem?_append_left hi]
        · intro j hj; simp only [Arr.row?, Arr.len]; rw [List.getElem?_append_right (by omega)]; simp
    | d2 cc xs =>
      cases b with
      | d1 _ => simp [Arr.isD1] at hrank
      | d2 c' ys =>
        have hcc : cc = c' := by rw [hfa, hfb] at hnf; exact hnf.symm
        subst hcc
        refine ⟨.d2 cc (xs ++ ys), by simp [Arr.concat], by simp [Arr.len], rfl, ?_, rfl, ?_, ?_⟩
        · intro r hr
          rcases List.mem_append.mp hr with hr | hr
          · exact hwfa r hr
          · exact hwfb r hr
        · intro i hi; simp only [Arr.row?]; rw [List.getElem?_append_left hi]
        · intro j hj; simp only [Arr.row?, Arr.len]; rw [List.getElem?_append_right (by omega)]; simp
  let cat : Option (List β) → Option (List β) → Option (List β) := fun o o' => match o, o' with
    | some e, some e' => some (e ++ e')
    | o, _ => o
  have happ : d.append e = (.ok (), { d with cov := some c, exp := cat d.exp e.exp, rsp := cat d.rsp e.rsp, nUnits := c.len }) := by
    have h1 := h.exp
    have h2 := h.rsp
    unfold append
    rw [if_neg (by simpa using hnf), ha, hb]
    simp only [catCov, hc]
    cases hE : d.exp <;> cases hE' : e.exp <;> cases hR : d.rsp <;> cases hR' : e.rsp <;> simp_all [cat]
  have hcatl : ∀ o o' : Option (List β), (o.isSome → o'.isSome) → (∀ x, o = some x → x.length = d.nUnits) →
      (∀ x, o' = some x → x.length = e.nUnits) → ∀ x, cat o o' = some x → x.length = c.len := by
    intro o o' hs h1 h2 x hx
    cases o with
    | none => simp [cat] at hx
    | some y => cases o' with
      | none => simp at hs
      | some z =>
        simp only [cat, Option.some.injEq] at hx
        subst hx
        rw [List.length_append, h1 y rfl, h2 z rfl, hcl, hna, hnb]
  have hcat1 : ∀ o o' : Option (List β), (o.isSome → o'.isSome) → (∀ x, o = some x → x.length = d.nUnits) →
      ∀ i, i < d.nUnits → (cat o o').bind (·[i]?) = o.bind (·[i]?) := by
    intro o o' hs h1 i hi
    cases o with
    | none => rfl
    | some y => cases o' with
      | none => rfl
      | some z =>
        simp only [cat, Option.bind_some]
        rw [List.getElem?_append_left (by rw [h1 y rfl]; exact hi)]
  have hcat2 : ∀ o o' : Option (List β), (o.isSome → o'.isSome) → (∀ x, o = some x → x.length = d.nUnits) →
      ∀ j, (cat o o').bind (·[d.nUnits + j]?) = if o.isSome then o'.bind (·[j]?) else none := by
    intro o o' hs h1 j
    cases o with
    | none => rfl
    | some y => cases o' with
      | none => simp at hs
      | some z =>
        simp only [cat, Option.bind_some, Option.isSome_some, if_true]
        rw [List.getElem?_append_right (by rw [h1 y rfl]; omega), h1 y rfl]
        simp
  have hcats : ∀ o o' : Option (List β), (cat o o').isSome = o.isSome := by
    intro o o'; cases o <;> cases o' <;> rfl
  refine ⟨_, happ, ⟨⟨c, rfl, hcw, rfl, ?_⟩, ?_, ?_⟩, ⟨rfl, ?_, ?_, ?_⟩, ?_, ?_, ?_⟩
  · rw [hcf]; exact hfa
  · exact hcatl _ _ h.exp hea heb
  · exact hcatl _ _ h.rsp hra hrb
  · simp [ha, hck]
  · exact hcats _ _
  · exact hcats _ _
  · simp only; rw [hcl, hna, hnb]
  · intro i hi
    simp only [unitAt, ha, Option.bind_some]
    rw [hrowl i (hna ▸ hi), hcat1 _ _ h.exp hea i hi, hcat1 _ _ h.rsp hra i hi]
  · intro j hj
    simp only [unitAt, restrictUnit, hb, Option.bind_some]
    rw [hcat2 _ _ h.exp hea, hcat2 _ _ h.rsp hra, hna, hrowr j (hnb ▸ hj)]

theorem appendable_of_ok (d e : ExpData β) (hd : d.WF) (he : e.WF) (h : (d.append e).1 = .ok ()) :
    Appendable d e := by
  obtain ⟨⟨a, ha, hwfa, hna, hfa⟩, hea, hra⟩ := hd
  obtain ⟨⟨b, hb, hwfb, hnb, hfb⟩, heb, hrb⟩ := he
  unfold append at h
  split at h
  · simp at h
  · rename_i hnf
    rw [ha, hb] at h
    simp only [catCov] at h
    cases hc : a.concat b with
    | error _ => rw [hc] at h; simp at h
    | ok c =>
      rw [hc] at h
      refine ⟨by simpa using hnf, ?_, ?_, ?_⟩
      · rw [ha, hb]; cases a <;> cases b <;> simp_all [Arr.concat, Arr.isD1]
      · cases hE : d.exp <;> cases hE' : e.exp <;> cases hR : d.rsp <;> cases hR' : e.rsp <;> simp_all
      · cases hE : d.exp <;> cases hE' : e.exp <;> cases hR : d.rsp <;> cases hR' : e.rsp <;> simp_all

/-! coordinate transformers -/

theorem pyIndex_eq_column (c : Nat) (i : Int) :
    pyIndex c i = match column c i with | some j => .ok j | none => .error .indexError := by
  unfold pyIndex column
  by_cases h0 : 0 ≤ i
  · by_cases h1 : i < c
    · simp [h0, h1]
    · have : ¬ (-(c:Int) ≤ i ∧ i < 0) := by omega
      simp [h0, h1, this]
  · by_cases h1 : 0 ≤ i + c
    · have h2 : (-(c:Int) ≤ i ∧ i < 0) := by omega
      simp [h0, h1, h2]
    · have h2 : ¬ (-(c:Int) ≤ i ∧ i < 0) := by omega
      simp only [h0, h1, h2, false_and, if_false]

theorem column_lt {c : Nat} {i : Int} {j : Nat} (h : column c i = some j) : j < c := by
  unfold column at h
  split at h
  · split at h
    · simp at h; omega
    · simp at h
  · split at h
    · simp at h; omega
    · simp at h

theorem mapM_pyIndex_ok (c : Nat) (idx : List Int) (h : ∀ i ∈ idx, (column c i).isSome) :
    idx.mapM (pyIndex c) = .ok (idx.filterMap (column c)) := by
  induction idx with
  | nil => rfl
  | cons i idx ih =>
    obtain ⟨j, hj⟩ := Option.isSome_iff_exists.mp (h i (by simp))
    rw [List.mapM_cons, ih (fun x hx => h x (by simp [hx])), pyIndex_eq_column, hj]
    simp [hj, bind, Except.bind, pure, Except.pure]

theorem mapM_pyIndex_error (c : Nat) (idx : List Int) (h : ¬ ∀ i ∈ idx, (column c i).isSome) :
    idx.mapM (pyIndex c) = .error .indexError := by
  induction idx with
  | nil => simp at h
  | cons i idx ih =>
    rw [List.mapM_cons, pyIndex_eq_column]
    cases hj : column c i with
    | none => rfl
    | some j =>
      have : ¬ ∀ i ∈ idx, (column c i).isSome := by
        intro h'; apply h; intro x hx
        rcases List.mem_cons.mp hx with rfl | hx
        · simp [hj]
        · exact h' x hx
      rw [ih this]
      rfl

theorem filterMap_column_length (c : Nat) (idx : List Int) (h : ∀ i ∈ idx, (column c i).isSome) :
    (idx.filterMap (column c)).length = idx.length := by
  induction idx with
  | nil => rfl
  | cons i idx ih =>
    obtain ⟨j, hj⟩ := Option.isSome_iff_exists.mp (h i (by simp))
    simp [hj, ih (fun x hx => h x (by simp [hx]))]

theorem filterMap_column_getElem? (c : Nat) (idx : List Int) (h : ∀ i ∈ idx, (column c i).isSome) (j : Nat) :
    (idx.filterMap (column c))[j]? = (idx[j]?).bind (column c) := by
  induction idx generalizing j with
  | nil => simp
  | cons i idx ih =>
    obtain ⟨k, hk⟩ := Option.isSome_iff_exists.mp (h i (by simp))
    cases j with
    | zero => simp [hk]
    | succ j => simp [hk, ih (fun x hx => h x (by simp [hx]))]

theorem coordMask_eq (idx : List Int) (d : ExpData β) (c : Nat) (rows : List (List β)) (hc : d.cov = some (.d2 c rows)) :
    coordMask idx d = if ∀ i ∈ idx, (column c i).isSome then
      .ok (new (some (.d2 idx.length (rows.map (gather (idx.filterMap (column c)))))) d.exp d.rsp)
      else .error .indexError := by
  unfold coordMask
  rw [hc]
  simp only
  split
  · rename_i h
    rw [mapM_pyIndex_ok c idx h]
    simp [bind, Except.bind, pure, Except.pure, filterMap_column_length c idx h]
  · rename_i h
    rw [mapM_pyIndex_error c idx h]; rfl

theorem gather_erase {γ : Type} (l : List γ) (j : Nat) :
    gather ((List.range l.length).eraseIdx j) l = l.eraseIdx j := by
  have h1 : (gather ((List.range l.length).eraseIdx j) l).map some = (l.eraseIdx j).map some := by
    rw [gather_eq_map _ _ (fun i hi => by simpa using List.mem_of_mem_eraseIdx hi), ← List.eraseIdx_map,
      ← List.eraseIdx_map, range_map_getElem?]
  exact (List.map_injective_iff.mpr (Option.some_injective _)) h1

end ExpData
end Verif
