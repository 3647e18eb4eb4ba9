import Verif.Props.Section52

/-!
# Property C76: what the seed of the examples of Sections 5.1 and 5.2 determines
-/

set_option linter.unusedSectionVars false
set_option linter.unusedSimpArgs false

namespace Verif
namespace Section5
open Cpds Paper
variable {R W K F A B : Type}

/-- The computation neither reads nor changes the global generator. -/
def LocalOnly (m : Py (R × W) A) : Prop := ∃ f : R → Except PyErr A × R, ∀ r w, m (r, w) = ((f r).1, ((f r).2, w))

theorem LocalOnly.pure (a : A) : LocalOnly (Pure.pure a : Py (R × W) A) := ⟨fun r => (.ok a, r), fun _ _ => rfl⟩

theorem LocalOnly.lift (e : Except PyErr A) : LocalOnly (Py.lift e : Py (R × W) A) := ⟨fun r => (e, r), fun _ _ => by simp [Py.lift_apply]⟩

theorem LocalOnly.raise (e : PyErr) : LocalOnly (Py.raise e : Py (R × W) A) := ⟨fun r => (.error e, r), fun _ _ => rfl⟩

theorem LocalOnly.onLocal (f : R → A × R) : LocalOnly (onLocal f : Py (R × W) A) := ⟨fun r => (.ok (f r).1, (f r).2), fun _ _ => rfl⟩

theorem LocalOnly.bind {m : Py (R × W) A} {k : A → Py (R × W) B} (hm : LocalOnly m) (hk : ∀ a, LocalOnly (k a)) : LocalOnly (m >>= k) := by
  obtain ⟨f, hf⟩ := hm
  choose h hh using hk
  refine ⟨fun r => match f r with | (.error e, r') => (.error e, r') | (.ok a, r') => h a r', fun r w => ?_⟩
  rw [Py.bind_apply, hf]
  dsimp only
  rcases f r with ⟨e | a, r'⟩
  · rfl
  · exact hh a r' w

theorem LocalOnly.scaled (g : Gens R W) (c : ℝ) (n : Nat) : LocalOnly (scaled g c n) := (LocalOnly.onLocal _).bind fun _ => LocalOnly.pure _

theorem localOnly_step (g : Gens R W) (strength : Py (R × W) ℝ) (h : LocalOnly strength) (zDim vDim : List Nat) (p : Params) (i : Nat) :
    LocalOnly (paramStep g strength zDim vDim p i) :=
  h.bind fun _ => (LocalOnly.lift _).bind fun _ => (LocalOnly.scaled _ _ _).bind fun _ => (LocalOnly.lift _).bind fun _ => (LocalOnly.scaled _ _ _).bind fun _ =>
    (LocalOnly.scaled _ _ _).bind fun _ => (LocalOnly.onLocal _).bind fun _ => (LocalOnly.scaled _ _ _).bind fun _ => LocalOnly.pure _

theorem localOnly_loop (g : Gens R W) (strength : Py (R × W) ℝ) (h : LocalOnly strength) (zDim vDim : List Nat) (is : List Nat) (p : Params) :
    LocalOnly (paramLoop g strength zDim vDim is p) := by
  induction is generalizing p with
  | nil => exact LocalOnly.pure _
  | cons i is ih => exact (localOnly_step g strength h zDim vDim p i).bind fun _ => ih _

theorem localOnly_params (g : Gens R W) (strength : Py (R × W) ℝ) (h : LocalOnly strength) (zDim vDim : List Nat) (M : Nat) :
    LocalOnly (params g strength zDim vDim M) := by
  refine (LocalOnly.lift _).bind fun _ => (LocalOnly.scaled _ _ _).bind fun _ => (LocalOnly.scaled _ _ _).bind fun _ =>
    (localOnly_loop g strength h zDim vDim _ _).bind fun p => ?_
  split
  · exact LocalOnly.raise _
  · exact (LocalOnly.lift _).bind fun _ => (LocalOnly.scaled _ _ _).bind fun _ => LocalOnly.pure _

/-- **C76** The seed determines the example of Section 5.1: for all dimensions, whether the construction ends, its result
(or exception) and the final state of its generator are functions of the initial state of the generator made from the seed;
NumPy's global generator is neither read nor changed. -/
theorem C76_seed51 (g : Gens R W) (zDim vDim : List Nat) (M fuel : Nat) :
    ∃ f : R → Option (Except PyErr Setup × R), ∀ r w,
      setup g (strength51 g) zDim vDim M fuel (r, w) = (f r).map fun x => (x.1, (x.2, w)) := by
  obtain ⟨f, hf⟩ := localOnly_params g (strength51 g) (LocalOnly.onLocal _) zDim vDim M
  refine ⟨fun r => match f r with
    | (.error e, r') => some (.error e, r')
    | (.ok p, r') =>
      match at' zDim 0 with
      | .error e => some (.error e, r')
      | .ok d0 =>
        match select (stdNormals g) ⟨d0, (LinGen.drawRows g.gauss d0 supportSize r').1.map fun row => List.zipWith (· + ·) (p.muZ.getD 0 []) row, p.beta.getD 0 []⟩
          fuel (LinGen.drawRows g.gauss d0 supportSize r').2 with
        | none => none
        | some (.error e, r2) => some (.error e, r2)
        | some (.ok sel, r2) => some (.ok ⟨p, ⟨d0, (LinGen.drawRows g.gauss d0 supportSize r').1.map fun row => List.zipWith (· + ·) (p.muZ.getD 0 []) row,
            p.beta.getD 0 []⟩, sel⟩, r2), fun r w => ?_⟩
  unfold setup
  rw [hf]
  dsimp only
  rcases f r with ⟨e | p, r'⟩
  · rfl
  · dsimp only
    unfold setupZ0
    rcases at' zDim 0 with e | d0
    · rfl
    · dsimp only
      generalize select (stdNormals g) _ fuel _ = t
      rcases t with _ | ⟨e | sel, r2⟩ <;> rfl

/-! ## Section 5.2 -/

theorem paramLoop_prefix (g : Gens R W) (strength : Py (R × W) ℝ) (zDim vDim : List Nat) (is : List Nat) (p p' : Params) (s s' : R × W)
    (h : paramLoop g strength zDim vDim is p s = (.ok p', s')) : ∃ l, p'.gamma = p.gamma ++ l := by
  induction is generalizing p s with
  | nil =>
    simp only [paramLoop, Py.pure_apply, Prod.mk.injEq, Except.ok.injEq] at h
    obtain ⟨rfl, -⟩ := h
    exact ⟨[], by simp⟩
  | cons i is ih =>
    rw [paramLoop, Py.bind_apply] at h
    rcases hs : paramStep g strength zDim vDim p i s with ⟨e | q, s1⟩
    · rw [hs] at h; cases h
    · rw [hs] at h
      obtain ⟨l, hl⟩ := ih q s1 h
      have : ∃ x, q.gamma = p.gamma ++ [x] := by
        unfold paramStep at hs
        simp only [Py.bind_apply, Py.lift_apply, scaled_eq, onLocal, Py.pure_apply] at hs
        revert hs
        rcases strength s with ⟨x | x, t⟩
        · intro hs; cases hs
        rcases at' vDim i with x | x
        · intro hs; cases hs
        rcases at' zDim i with x | x
        · intro hs; cases hs
        intro hs
        cases hs
        exact ⟨_, rfl⟩
      obtain ⟨x, hx⟩ := this
      exact ⟨x :: l, by rw [hl, hx]; simp⟩

/-- The first coefficients of `X`. -/
theorem params_gamma (g : Gens R W) (zDim vDim : List Nat) (M : Nat) (hM : 1 ≤ M) (r : R) (w : W) (p : Params) (s' : R × W)
    (h : params g (strength52 g) zDim vDim M (r, w) = (.ok p, s')) :
    p.gamma[0]? = some ((List.range (vDim.getD 1 0)).map fun i => (g.globalUnif (1 / 10) (19 / 10) w).1 *
      nthDraw g.gauss r (zDim.getD 0 0 + zDim.getD 0 0 + vDim.getD 1 0 + zDim.getD 1 0 + i)) := by
  obtain ⟨M, rfl⟩ : ∃ k, M = k + 1 := ⟨M - 1, by omega⟩
  unfold params at h
  rw [List.range'_succ] at h
  simp only [Py.bind_apply, Py.lift_apply, paramLoop] at h
  rcases h0 : at' zDim 0 with e | d0
  · rw [h0] at h; cases h
  rw [h0] at h
  simp only [scaled_eq] at h
  have e0 : zDim.getD 0 0 = d0 := by
    unfold at' at h0
    rcases hz : zDim[0]? with _ | x
    · rw [hz] at h0; cases h0
    · rw [hz] at h0; cases h0; simp [hz]
  unfold paramStep at h
  simp only [Py.bind_apply, Py.lift_apply, strength52, onGlobal, onLocal, scaled_eq, Py.pure_apply] at h
  rcases h1 : at' vDim 1 with e | d1
  · rw [h1] at h; cases h
  rcases h2 : at' zDim 1 with e | d2
  · rw [h1, h2] at h; cases h
  have e1 : vDim.getD 1 0 = d1 := by
    unfold at' at h1
    rcases hz : vDim[1]? with _ | x
    · rw [hz] at h1; cases h1
    · rw [hz] at h1; cases h1; simp [hz]
  have e2 : zDim.getD 1 0 = d2 := by
    unfold at' at h2
    rcases hz : zDim[1]? with _ | x
    · rw [hz] at h2; cases h2
    · rw [hz] at h2; cases h2; simp [hz]
  rw [h1, h2] at h
  simp only at h
  rw [e0, e1, e2]
  split at h
  · rename_i q s1 hq
    obtain ⟨l, hl⟩ := paramLoop_prefix _ _ _ _ _ _ _ _ _ hq
    have hp : p.gamma = q.gamma := by
      rcases hlast : q.last with _ | ⟨st, k⟩
      · rw [hlast] at h; cases h
      · rw [hlast] at h
        simp only [Py.bind_apply, Py.lift_apply, Py.pure_apply, scaled_eq] at h
        revert h
        rcases at' zDim k with x | x
        · intro h; cases h
        · intro h; cases h; rfl
    rw [hp, hl]
    simp only [LinGen.drawN_eq, List.nil_append, List.singleton_append, List.getElem?_cons_zero, List.map_map, Function.comp_def]
    simp only [LinGen.nthDraw_add, LinGen.afterDraws_add]
  · cases h

/-- **C76 (violated)** The seed does not determine the example of Section 5.2: the coefficients of `V1` in `X` are normal
numbers determined by the seed, times a number drawn from NumPy's global generator.  Whenever one of those normal numbers is
not zero, two states of the global generator with different next uniform numbers give different coefficients, with the same seed. -/
theorem C76_seed52_violated (lib : Nonlinear.GPLib K F ℝ) (g : Gens R W) (kernel : K) (zDim vDim : List Nat) (M : Nat) (hM : 1 ≤ M) (fuel : Nat) (r : R)
    (w1 w2 : W) (S1 S2 : Setup) (F1 F2 : Fns F) (s1 s2 : R × W)
    (h1 : setup52 lib g kernel zDim vDim M fuel (r, w1) = some (.ok (S1, F1), s1))
    (h2 : setup52 lib g kernel zDim vDim M fuel (r, w2) = some (.ok (S2, F2), s2))
    (hne : (g.globalUnif (1 / 10) (19 / 10) w1).1 ≠ (g.globalUnif (1 / 10) (19 / 10) w2).1) (i : Nat) (hi : i < vDim.getD 1 0)
    (hnz : nthDraw g.gauss r (zDim.getD 0 0 + zDim.getD 0 0 + vDim.getD 1 0 + zDim.getD 1 0 + i) ≠ 0) :
    S1.p.gamma[0]? ≠ S2.p.gamma[0]? := by
  have key : ∀ w S Fs s', setup52 lib g kernel zDim vDim M fuel (r, w) = some (.ok (S, Fs), s') →
      S.p.gamma[0]? = some ((List.range (vDim.getD 1 0)).map fun i => (g.globalUnif (1 / 10) (19 / 10) w).1 *
        nthDraw g.gauss r (zDim.getD 0 0 + zDim.getD 0 0 + vDim.getD 1 0 + zDim.getD 1 0 + i)) := by
    intro w S Fs s' h
    unfold setup52 at h
    rcases hs : setup g (strength52 g) zDim vDim M fuel (r, w) with _ | ⟨e | S', t⟩
    · rw [hs] at h; cases h
    · rw [hs] at h; cases h
    · rw [hs] at h
      have hSS : S' = S := by
        dsimp only at h
        split at h
        · cases h
        · cases h; rfl
      subst hSS
      unfold setup at hs
      rcases hp : params g (strength52 g) zDim vDim M (r, w) with ⟨e | p, t'⟩
      · rw [hp] at hs; cases hs
      · rw [hp] at hs
        have : S'.p = p := by
          unfold setupZ0 at hs
          dsimp only at hs
          split at hs
          · cases hs
          split at hs
          · cases hs
          · cases hs
          · cases hs; rfl
        rw [this]
        exact params_gamma g zDim vDim M hM r w p t' hp
  rw [key w1 S1 F1 s1 h1, key w2 S2 F2 s2 h2]
  intro he
  simp only [Option.some.injEq] at he
  have := congrArg (fun l => l[i]?) he
  simp only [List.getElem?_map, List.getElem?_range hi, Option.map_some, Option.some.injEq] at this
  exact hne (mul_right_cancel₀ hnz this)

/-! ## Instances -/

/-- Generators whose global uniform number is the state itself. -/
noncomputable def seedGens : Gens Unit ℝ where
  gauss _ := (1, ())
  unif _ _ _ := (1 / 2, ())
  globalUnif _ _ w := (w, w)
  randint _ w := (0, w)

theorem seed_setup52 (w : ℝ) : ∃ S fns s', setup52 demoLib seedGens () [2, 1, 2] [0, 3, 1] 2 0 ((), w) = some (.ok (S, fns), s') := by
  obtain ⟨S, s', h⟩ := const_setup seedGens ((), w) (strength52 seedGens) (fun s => ⟨_, _, rfl⟩) [2, 1, 2] [0, 3, 1] 2 (by simp) (by simp) (by simp) 0
  obtain ⟨fns, -, -, -, w', e, -⟩ := functions52_eq demoLib seedGens () [2, 1, 2] [0, 3, 1] 2 (by simp) (by simp) s'
  refine ⟨S, fns, (s'.1, w'), ?_⟩
  unfold setup52
  rw [h]
  dsimp only
  rw [e]

/-- Two states of the global generator, one seed, two examples. -/
example : ∃ S1 S2 F1 F2 s1 s2, setup52 demoLib seedGens () [2, 1, 2] [0, 3, 1] 2 0 ((), 1) = some (.ok (S1, F1), s1) ∧
    setup52 demoLib seedGens () [2, 1, 2] [0, 3, 1] 2 0 ((), 1 / 2) = some (.ok (S2, F2), s2) ∧ S1.p.gamma[0]? ≠ S2.p.gamma[0]? := by
  obtain ⟨S1, F1, s1, h1⟩ := seed_setup52 1
  obtain ⟨S2, F2, s2, h2⟩ := seed_setup52 (1 / 2)
  exact ⟨S1, S2, F1, F2, s1, s2, h1, h2, C76_seed52_violated demoLib seedGens () [2, 1, 2] [0, 3, 1] 2 (by simp) 0 () 1 (1 / 2) S1 S2 F1 F2 s1 s2 h1 h2
    (by norm_num [seedGens]) 0 (by simp) (by simp [nthDraw, seedGens])⟩

/-- The same seed gives the same example in Section 5.1, whatever the state of the global generator. -/
example : ∃ S, ∀ w, setup seedGens (strength51 seedGens) [2, 1, 2] [0, 3, 1] 2 0 ((), w) = some (.ok S, ((), w)) := by
  obtain ⟨f, hf⟩ := C76_seed51 seedGens [2, 1, 2] [0, 3, 1] 2 0
  obtain ⟨S, s', h⟩ := const_setup seedGens ((), 0) (strength51 seedGens) (fun s => ⟨_, _, rfl⟩) [2, 1, 2] [0, 3, 1] 2 (by simp) (by simp) (by simp) 0
  refine ⟨S, fun w => ?_⟩
  rw [hf] at h ⊢
  rcases hx : f () with _ | ⟨x, u⟩
  · rw [hx] at h; cases h
  · rw [hx] at h
    simp only [Option.map_some, Option.some.injEq, Prod.mk.injEq] at h ⊢
    simpa using h.1

end Section5
end Verif
