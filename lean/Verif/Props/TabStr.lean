import Verif.Lemmas.TabStr

/-!
# C94: printing a `TabularCPD`
-/

set_option linter.unusedSectionVars false

namespace Verif
namespace Tab
variable {KX KZ α : Type} [DecidableEq KX] [DecidableEq KZ] [Field α] [LinearOrder α]

/-- **C94 (partial)** After any successful `fit` and any predictions for pairs of the support, `__str__` prints every value of `x_support()`
and, in its row, every value of `z_support()` exactly once, with the probability that `predict` returns for the pair.
Missing: predictions for other pairs, see `C94_str_violated`. -/
theorem C94_str_partial {t t' : Tab KX KZ α} {xs : List KX} {zs : List KZ} (hfit : t.fit xs zs = (.ok (), t'))
    (queries : List (List (KX × KZ))) (hq : ∀ l ∈ queries, ∀ q ∈ l, q.1 ∈ t'.xValues ∧ q.2 ∈ t'.zValues) :
    ∃ rows, (queries.foldl (fun t l => (t.predict l).2) t').str = .ok rows ∧ Enumerates (rows.map Prod.fst) t'.xValues ∧
      ∀ r ∈ rows, Enumerates (r.2.map Prod.fst) t'.zValues ∧ ∀ c ∈ r.2, (t'.predict [(r.1, c.1)]).1 = [c.2] := by
  have hf := fit_full hfit
  have hsame : queries.foldl (fun t l => (t.predict l).2) t' = t' := by
    induction queries with
    | nil => rfl
    | cons l queries ih =>
      rw [List.foldl_cons, predict_known l t' hf (hq l (by simp))]
      exact ih fun l hl => hq l (by simp [hl])
  rw [hsame]
  have hrow : ∀ r ∈ t'.table, r.1 ∈ t'.xValues ∧ t'.table.getD r.1 [] = r.2 := by
    rintro ⟨x, row⟩ hr
    exact ⟨(hf.2.1 x).mp (List.mem_map.mpr ⟨_, hr, rfl⟩), Dict.getD_of_mem hf.1 hr []⟩
  refine ⟨t'.table, str_ok t' fun r hr => ⟨(hrow r hr).1, fun c hc => ?_⟩, ⟨hf.1, hf.2.1⟩, fun r hr => ?_⟩
  · have := ((hf.2.2 r.1 (hrow r hr).1).2 c.1).mp
    rw [(hrow r hr).2] at this
    exact this (List.mem_map.mpr ⟨c, hc, rfl⟩)
  · have h1 := hf.2.2 r.1 (hrow r hr).1
    rw [(hrow r hr).2] at h1
    refine ⟨h1, fun c hc => ?_⟩
    rw [(predict_eq _ t').1]
    simp only [List.map_cons, List.map_nil, cell]
    rw [(hrow r hr).2, Dict.getD_of_mem h1.1 hc]

/-- a table with observations of two values each -/
def strData : List (Nat × Nat) := [(0, 3), (0, 4), (1, 3), (1, 3), (0, 3)]

example : ∃ t' : Tab Nat Nat ℚ, (new 20 : Tab Nat Nat ℚ).fit (strData.map Prod.fst) (strData.map Prod.snd) = (.ok (), t') ∧
    (t'.predict [(1, 4), (0, 3)]).2.str = .ok [(0, [(3, 2 / 3), (4, 1 / 3)]), (1, [(3, 39 / 40), (4, 1 / 40)])] ∧
    ∀ q ∈ [(1, 4), (0, 3)], q.1 ∈ t'.xValues ∧ q.2 ∈ t'.zValues :=
  ⟨((new 20 : Tab Nat Nat ℚ).fit (strData.map Prod.fst) (strData.map Prod.snd)).2, by decide +kernel, by decide +kernel, by decide +kernel⟩

/-- **C94 is violated**: predicting a single pair off the support makes every later `__str__` of any table raise `KeyError` (until
the next `fit`), although it does not change the predictions (C12). -/
theorem C94_str_violated (t : Tab KX KZ α) (queries : List (List (KX × KZ))) {l : List (KX × KZ)} (hl : l ∈ queries) {q : KX × KZ}
    (hq : q ∈ l) (hoff : q.1 ∉ t.xValues ∨ q.2 ∉ t.zValues) :
    (queries.foldl (fun t l => (t.predict l).2) t).str = .error .keyError := by
  have hmono : ∀ (qs : List (List (KX × KZ))) (t : Tab KX KZ α),
      (qs.foldl (fun t l => (t.predict l).2) t).xValues = t.xValues ∧ (qs.foldl (fun t l => (t.predict l).2) t).zValues = t.zValues ∧
      (∀ x ∈ t.table.keys, x ∈ (qs.foldl (fun t l => (t.predict l).2) t).table.keys) ∧
      ∀ x, ∀ z ∈ (t.table.getD x []).keys, z ∈ ((qs.foldl (fun t l => (t.predict l).2) t).table.getD x []).keys := by
    intro qs
    induction qs with
    | nil => exact fun t => ⟨rfl, rfl, fun _ h => h, fun _ _ h => h⟩
    | cons l qs ih =>
      intro t
      obtain ⟨g1, g2, g3, g4⟩ := ih (t.predict l).2
      obtain ⟨k1, k2, k3, k4, -⟩ := predict_keys l t
      exact ⟨g1.trans k1, g2.trans k2, fun x h => g3 x (k3 x h), fun x z h => g4 x z (k4 x z h)⟩
  obtain ⟨as, bs, rfl⟩ := List.append_of_mem hl
  rw [List.foldl_append, List.foldl_cons]
  obtain ⟨a1, a2, -, -⟩ := hmono as t
  generalize as.foldl (fun t l => (t.predict l).2) t = t1 at a1 a2
  obtain ⟨k1, k2, -, -, k5⟩ := predict_keys l t1
  obtain ⟨g1, g2, g3, g4⟩ := hmono bs (t1.predict l).2
  generalize bs.foldl (fun t l => (t.predict l).2) (t1.predict l).2 = t2 at g1 g2 g3 g4
  have hx := g3 _ (k5 q hq).1
  have hz := g4 _ _ (k5 q hq).2
  refine str_error t2 ⟨_, Dict.mem_of_key hx [], ?_⟩
  rw [g1, g2, k1, k2, a1, a2]
  refine hoff.imp id fun h => ?_
  exact ⟨_, Dict.mem_of_key hz 0, h⟩

example : ∃ t' : Tab Nat Nat ℚ, (new 20 : Tab Nat Nat ℚ).fit (strData.map Prod.fst) (strData.map Prod.snd) = (.ok (), t') ∧
    (∃ rows, t'.str = .ok rows) ∧ 9 ∉ t'.zValues ∧ (t'.predict [(0, 9)]).1 = [0] ∧ (t'.predict [(0, 9)]).2.str = .error .keyError :=
  ⟨((new 20 : Tab Nat Nat ℚ).fit (strData.map Prod.fst) (strData.map Prod.snd)).2, by decide +kernel,
    ⟨[(0, [(3, 2 / 3), (4, 1 / 3)]), (1, [(3, 39 / 40), (4, 1 / 40)])], by decide +kernel⟩, by decide +kernel, by decide +kernel, by decide +kernel⟩

end Tab
end Verif
