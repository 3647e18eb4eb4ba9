import Verif.Spec.Data
import Mathlib.Data.List.Range
import Mathlib.Data.List.Perm.Basic
import Mathlib.Data.Int.CardIntervalMod
import Mathlib.Data.List.GetD
import Mathlib.Data.Fintype.Card
import Mathlib.Tactic.Linarith
import Mathlib.Data.Fintype.Fin
import Mathlib.Data.Finset.Sort

namespace Verif
namespace ExpData
variable {β : Type}

theorem filterMask_map {γ δ : Type} (f : γ → δ) (m : List Bool) (l : List γ) :
    filterMask m (l.map f) = (filterMask m l).map f := by
  induction m generalizing l with
  | nil => cases l <;> rfl
  | cons b m ih => cases l <;> cases b <;> simp [filterMask, ih]

theorem filterMask_sublist {γ : Type} (m : List Bool) (l : List γ) : (filterMask m l).Sublist l := by
  induction m generalizing l with
  | nil => simp [filterMask]
  | cons b m ih =>
    cases l with
    | nil => cases b <;> simp [filterMask]
    | cons x xs =>
      cases b
      · simpa [filterMask] using (ih xs).cons x
      · simpa [filterMask] using (ih xs)

/-- positions selected by a mask -/
def maskIdx (m : List Bool) : List Nat := filterMask m (List.range m.length)

theorem mem_maskIdx_lt {m : List Bool} {i : Nat} (h : i ∈ maskIdx m) : i < m.length := by
  have := (filterMask_sublist m (List.range m.length)).subset h
  simpa using this

theorem maskIdx_sorted (m : List Bool) : (maskIdx m).Pairwise (· < ·) :=
  List.Pairwise.sublist (filterMask_sublist _ _) List.pairwise_lt_range

theorem gather_eq_map {γ : Type} (is : List Nat) (xs : List γ) (h : ∀ i ∈ is, i < xs.length) :
    (gather is xs).map some = is.map (xs[·]?) := by
  unfold gather
  induction is with
  | nil => simp
  | cons i is ih =>
    have hi : i < xs.length := h i (by simp)
    simp only [List.map_cons]
    rw [List.filterMap_cons]
    simp only [List.getElem?_eq_getElem hi, List.map_cons]
    rw [ih (fun j hj => h j (by simp [hj]))]

theorem gather_length {γ : Type} (is : List Nat) (xs : List γ) (h : ∀ i ∈ is, i < xs.length) :
    (gather is xs).length = is.length := by
  have := congrArg List.length (gather_eq_map is xs h)
  simpa using this

theorem gather_getElem? {γ : Type} (is : List Nat) (xs : List γ) (h : ∀ i ∈ is, i < xs.length) (j : Nat) :
    (gather is xs)[j]? = (is[j]?).bind (xs[·]?) := by
  have h1 := congrArg (·[j]?) (gather_eq_map is xs h)
  simp only [List.getElem?_map] at h1
  rcases hj : is[j]? with _ | i
  · rw [hj] at h1; simpa using h1
  · rw [hj] at h1
    rcases hg : (gather is xs)[j]? with _ | y
    · rw [hg] at h1; simp at h1
    · rw [hg] at h1; simpa using h1

theorem gather_maskIdx {γ : Type} (m : List Bool) (xs : List γ) (h : m.length = xs.length) :
    gather (maskIdx m) xs = filterMask m xs := by
  have h1 : (gather (maskIdx m) xs).map some = (filterMask m xs).map some := by
    rw [gather_eq_map _ _ (fun i hi => h ▸ mem_maskIdx_lt hi), ← filterMask_map, maskIdx,
      ← filterMask_map]
    congr 1
    rw [h]
    apply List.ext_getElem?
    intro i
    by_cases hi : i < xs.length
    · simp [hi]
    · simp [hi]
  exact (List.map_injective_iff.mpr (Option.some_injective _)) h1

theorem gather_mem {γ : Type} {is : List Nat} {xs : List γ} {x : γ} (h : x ∈ gather is xs) : x ∈ xs := by
  unfold gather at h
  simp only [List.mem_filterMap] at h
  obtain ⟨i, _, hi⟩ := h
  exact List.mem_of_getElem? hi

/-- the dataset made of the units at positions `is` -/
def pick (d : ExpData β) (is : List Nat) : ExpData β :=
  new (d.cov.map (·.onRows (gather is))) (d.exp.map (gather is)) (d.rsp.map (gather is))

theorem pick_isSelection (d : ExpData β) (hd : d.WF) (is : List Nat) (his : ∀ i ∈ is, i < d.nUnits) :
    IsSelection d (d.pick is) is := by
  obtain ⟨⟨a, ha, hwf, hn, hf⟩, he, hr⟩ := hd
  have hlen : (a.onRows (gather is)).len = is.length := by
    cases a <;> simp only [Arr.onRows, Arr.len] at * <;> exact gather_length _ _ (by rwa [← hn])
  have hfe : (a.onRows (gather is)).nFeatures = a.nFeatures := by cases a <;> rfl
  refine ⟨⟨⟨_, by simp [pick, new, ha]; rfl, ?_, ?_, ?_⟩, ?_, ?_⟩, ⟨?_, ?_, ?_, ?_⟩, ?_, ?_⟩
  · cases a with
    | d1 => trivial
    | d2 c rows => exact fun r hr => hwf r (gather_mem hr)
  · simp [pick, new, ha]
  · simp [pick, new, ha]
  · intro e hee
    simp only [pick, new, Option.map_eq_some_iff] at hee
    obtain ⟨e', he', rfl⟩ := hee
    simp only [pick, new, ha, Option.map_some, hlen]
    exact gather_length _ _ (by rwa [he e' he'])
  · intro e hee
    simp only [pick, new, Option.map_eq_some_iff] at hee
    obtain ⟨e', he', rfl⟩ := hee
    simp only [pick, new, ha, Option.map_some, hlen]
    exact gather_length _ _ (by rwa [hr e' he'])
  · simp [pick, new, ha, hfe, hf]
  · cases a <;> simp [pick, new, ha, Arr.onRows, Arr.isD1]
  · simp [pick, new]
  · simp [pick, new]
  · simp [pick, new, ha, hlen]
  · intro j hj
    refine ⟨his _ (List.getElem_mem hj), ?_⟩
    have hjj : is[j]? = some is[j] := List.getElem?_eq_getElem hj
    unfold unitAt
    congr 1
    · cases a with
      | d1 xs =>
        simp only [pick, new, ha, Option.map_some, Arr.onRows, Option.bind_some, Arr.row?]
        rw [gather_getElem? _ _ (by rwa [hn] at his), hjj]; rfl
      | d2 c xs =>
        simp only [pick, new, ha, Option.map_some, Arr.onRows, Option.bind_some, Arr.row?]
        rw [gather_getElem? _ _ (by rwa [hn] at his), hjj]; rfl
    · congr 1
      · cases hE : d.exp with
        | none => simp [pick, new, hE]
        | some e =>
          simp only [pick, new, hE, Option.map_some, Option.bind_some]
          rw [gather_getElem? _ _ (by rwa [he e hE]), hjj]; rfl
      · cases hE : d.rsp with
        | none => simp [pick, new, hE]
        | some e =>
          simp only [pick, new, hE, Option.map_some, Option.bind_some]
          rw [gather_getElem? _ _ (by rwa [hr e hE]), hjj]; rfl

theorem select_eq_pick (d : ExpData β) (hd : d.WF) (m : List Bool) (hm : m.length = d.nUnits) :
    d.select m = .ok (d.pick (maskIdx m)) := by
  obtain ⟨⟨a, ha, hwf, hn, hf⟩, he, hr⟩ := hd
  have h1 : maskCov m d.cov = .ok (a.onRows (gather (maskIdx m))) := by
    simp only [maskCov, ha, hm, hn, if_true]
    congr 1
    cases a with
    | d1 xs => simp only [Arr.onRows]; rw [gather_maskIdx m xs (by rw [hm, hn]; rfl)]
    | d2 c xs => simp only [Arr.onRows]; rw [gather_maskIdx m xs (by rw [hm, hn]; rfl)]
  have h2 : ∀ o : Option (List β), (∀ e, o = some e → e.length = d.nUnits) →
      maskOpt m o = .ok (o.map (gather (maskIdx m))) := by
    intro o ho
    cases o with
    | none => rfl
    | some e =>
      have := ho e rfl
      simp only [maskOpt, maskList, hm, this, if_true, Except.map, Option.map_some]
      rw [gather_maskIdx m e (by rw [hm, this])]
  unfold select
  rw [h1, h2 _ he, h2 _ hr]
  simp [pick, ha, bind, Except.bind, pure, Except.pure]

/-- Two well-formed datasets of the same kind and size that agree on every unit are equal. -/
theorem ext_units {d f : ExpData β} (hd : d.WF) (hf : f.WF) (hk : SameKind d f) (hn : f.nUnits = d.nUnits)
    (hu : ∀ i, i < d.nUnits → f.unitAt i = d.unitAt i) : f = d := by
  obtain ⟨⟨a, ha, hwf, hna, hfa⟩, he, hr⟩ := hd
  obtain ⟨⟨b, hb, hwfb, hnb, hfb⟩, he', hr'⟩ := hf
  have hcov : f.cov = d.cov := by
    rw [ha, hb]
    congr 1
    have hrank := hk.rank
    rw [ha, hb] at hrank
    have hrow : ∀ i, i < a.len → b.row? i = a.row? i := by
      intro i hi
      have := congrArg Prod.fst (hu i (hna ▸ hi))
      simpa [unitAt, ha, hb] using this
    have hlen : b.len = a.len := by rw [← hnb, ← hna, hn]
    cases a with
    | d1 xs =>
      cases b with
      | d2 c ys => simp [Arr.isD1] at hrank
      | d1 ys =>
        congr 1
        apply List.ext_getElem?
        intro i
        by_cases hi : i < xs.length
        · have := hrow i hi
          have hi' : i < ys.length := by simp only [Arr.len] at hlen; omega
          simp only [Arr.row?, List.getElem?_eq_getElem hi, List.getElem?_eq_getElem hi', Option.map_some] at this
          simp only [List.getElem?_eq_getElem hi, List.getElem?_eq_getElem hi']
          simpa using this
        · have : ¬ i < ys.length := by simp only [Arr.len] at hlen; omega
          simp [hi, this]
    | d2 c xs =>
      cases b with
      | d1 ys => simp [Arr.isD1] at hrank
      | d2 c' ys =>
        have : c' = c := by
          have := hk.nFeatures; rw [hfa, hfb] at this; exact this
        subst this
        congr 1
        apply List.ext_getElem?
        intro i
        by_cases hi : i < xs.length
        · exact hrow i hi
        · have : ¬ i < ys.length := by simp only [Arr.len] at hlen; omega
          simp [hi, this]
  have hopt : ∀ (o o' : Option (List β)), o'.isSome = o.isSome → (∀ e, o = some e → e.length = d.nUnits) →
      (∀ e, o' = some e → e.length = f.nUnits) →
      (∀ i, i < d.nUnits → o'.bind (·[i]?) = o.bind (·[i]?)) → o' = o := by
    intro o o' hs h1 h2 h3
    cases o with
    | none => cases o' with
      | none => rfl
      | some => simp at hs
    | some e => cases o' with
      | none => simp at hs
      | some e' =>
        congr 1
        have l1 := h1 e rfl
        have l2 := h2 e' rfl
        apply List.ext_getElem?
        intro i
        by_cases hi : i < d.nUnits
        · exact h3 i hi
        · have g1 : ¬ i < e.length := by omega
          have g2 : ¬ i < e'.length := by omega
          simp [List.getElem?_eq_none (not_lt.mp g1), List.getElem?_eq_none (not_lt.mp g2)]
  have hexp : f.exp = d.exp := hopt _ _ hk.exp he he' fun i hi => by
    have := congrArg (fun p => p.2.1) (hu i hi); simpa [unitAt] using this
  have hrsp : f.rsp = d.rsp := hopt _ _ hk.rsp hr hr' fun i hi => by
    have := congrArg (fun p => p.2.2) (hu i hi); simpa [unitAt] using this
  have hnf := hk.nFeatures
  cases d; cases f; simp_all

/-- filters by the values of `f` partition a list -/
theorem flatten_filter_perm {γ : Type} (f : γ → Nat) (l : List γ) (k : Nat) :
    (((List.range k).map fun i => l.filter (fun x => f x == i)).flatten).Perm (l.filter (fun x => f x < k)) := by
  induction k with
  | zero => simp
  | succ k ih =>
    rw [List.range_succ, List.map_append, List.flatten_append]
    refine (ih.append_right _).trans ?_
    simp only [List.map_cons, List.map_nil, List.flatten_cons, List.flatten_nil, List.append_nil]
    clear ih
    induction l with
    | nil => simp
    | cons x l ih2 =>
      simp only [List.filter_cons]
      rcases lt_trichotomy (f x) k with h | h | h
      · have h1 : ¬ f x = k := by omega
        have h2 : f x < k + 1 := by omega
        simp [h, h1, h2]; exact ih2
      · have h1 : ¬ f x < k := by omega
        have h2 : f x < k + 1 := by omega
        simp only [h, lt_irrefl, decide_false, beq_self_eq_true, if_true]
        simp only [Nat.lt_succ_self, decide_true, if_true]
        exact List.perm_middle.trans (ih2.cons _)
      · have h1 : ¬ f x < k := by omega
        have h2 : ¬ f x < k + 1 := by omega
        have h3 : ¬ f x = k := by omega
        simp [h1, h2, h3]; exact ih2

theorem filterMask_eq_filter {γ : Type} (p : γ → Bool) (l : List γ) : filterMask (l.map p) l = l.filter p := by
  induction l with
  | nil => rfl
  | cons x l ih => by_cases h : p x <;> simp [filterMask, h, ih]

/-- label of unit `u` as a function on naturals -/
def labelAt (n k : Nat) (σ : Equiv.Perm (Fin n)) (u : Nat) : Nat :=
  if h : u < n then (σ ⟨u, h⟩).val % k else 0

theorem foldLabels_eq (n k : Nat) (σ : Equiv.Perm (Fin n)) :
    foldLabels n k σ = (List.range n).map (labelAt n k σ) := by
  apply List.ext_getElem
  · simp [foldLabels]
  · intro i h1 h2
    simp [foldLabels] at h1
    simp [foldLabels, labelAt, h1]

theorem foldLabels_length (n k : Nat) (σ : Equiv.Perm (Fin n)) : (foldLabels n k σ).length = n := by
  simp [foldLabels]

theorem maskIdx_labels (n k i : Nat) (σ : Equiv.Perm (Fin n)) :
    maskIdx ((foldLabels n k σ).map (· == i)) = (List.range n).filter (fun u => labelAt n k σ u == i) := by
  unfold maskIdx
  rw [List.length_map, foldLabels_length, foldLabels_eq, List.map_map, ← filterMask_eq_filter]
  rfl

theorem mapM_ok {γ δ : Type} (f : γ → Except PyErr δ) (g : γ → δ) (l : List γ) (h : ∀ x ∈ l, f x = .ok (g x)) :
    l.mapM f = .ok (l.map g) := by
  induction l with
  | nil => rfl
  | cons x l ih =>
    rw [List.mapM_cons, h x (by simp), ih (fun y hy => h y (by simp [hy]))]
    rfl

theorem kFold_eq (d : ExpData β) (hd : d.WF) (k : Nat) (hk : 1 ≤ k) (σ : Equiv.Perm (Fin d.nUnits)) :
    d.kFold k σ = .ok ((List.range k).map fun i =>
      d.pick ((List.range d.nUnits).filter (fun u => labelAt d.nUnits k σ u == i))) := by
  unfold kFold
  rw [if_neg (by omega)]
  simp only [Int.toNat_natCast]
  apply mapM_ok
  intro i _
  rw [select_eq_pick d hd _ (by simp [foldLabels_length]), maskIdx_labels]

theorem labelAt_lt {n k : Nat} (hk : 1 ≤ k) (σ : Equiv.Perm (Fin n)) (u : Nat) : labelAt n k σ u < k := by
  unfold labelAt
  split
  · exact Nat.mod_lt _ hk
  · omega

theorem length_filter_label (n k i : Nat) (hk : 1 ≤ k) (hi : i < k) (σ : Equiv.Perm (Fin n)) :
    ((List.range n).filter fun u => labelAt n k σ u == i).length = n / k + if i < n % k then 1 else 0 := by
  have h1 : ((List.range n).filter fun u => labelAt n k σ u == i).length =
      ((List.finRange n).map σ).countP (fun v => v.val % k == i) := by
    rw [← List.countP_eq_length_filter, List.countP_map, ← List.map_coe_finRange_eq_range, List.countP_map]
    congr 1
    funext u
    simp [labelAt]
  rw [h1, (Equiv.Perm.map_finRange_perm σ).countP_eq]
  have h2 : (List.finRange n).countP (fun v => v.val % k == i) = (List.range n).countP (fun v => v % k == i) := by
    rw [← List.map_coe_finRange_eq_range, List.countP_map]; rfl
  rw [h2]
  have h3 : (List.range n).countP (fun v => v % k == i) = n.count (· ≡ i [MOD k]) := by
    rw [Nat.count_eq_card_filter_range, List.countP_eq_length_filter]
    rw [← List.toFinset_card_of_nodup (List.Nodup.filter _ List.nodup_range)]
    congr 1
    ext v
    simp [Nat.ModEq, Nat.mod_eq_of_lt hi]
  rw [h3, Nat.count_modEq_card n (by omega), Nat.mod_eq_of_lt hi]

end ExpData
end Verif
