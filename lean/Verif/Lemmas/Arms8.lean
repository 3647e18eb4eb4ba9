import Verif.Lemmas.Arms5
import Verif.Props.Data

/-!
# The bootstrap interval
-/

set_option linter.unusedSectionVars false

namespace Verif
namespace Arm
open ExpData
variable {E β α W : Type} [Field α] [LinearOrder α]

theorem sortLe_iff (a b : Fl α) : sortLe a b ↔ b = .nan ∨ a.le b = true := by
  unfold sortLe
  cases b <;> simp [Fl.isNan]

instance : Std.Total (sortLe (α := α)) where
  total a b := by
    rw [sortLe_iff, sortLe_iff]
    cases a <;> cases b <;> simp [Fl.le, Fl.lt, Fl.eq]
    rename_i x y
    rcases lt_trichotomy x y with h | h | h
    · left; left; exact h
    · left; right; exact h
    · right; left; exact h

instance : IsTrans (Fl α) (sortLe (α := α)) where
  trans a b c := by
    rw [sortLe_iff, sortLe_iff, sortLe_iff]
    cases a <;> cases b <;> cases c <;> simp [Fl.le, Fl.lt, Fl.eq]
    rename_i x y z
    intro h1 h2
    have := (le_iff_lt_or_eq.mpr h1).trans (le_iff_lt_or_eq.mpr h2)
    exact le_iff_lt_or_eq.mp this

theorem npSort_perm (l : List (Fl α)) : (npSort l).Perm l := List.perm_insertionSort _ _

theorem npSort_sorted (l : List (Fl α)) : (npSort l).Pairwise (fun a b => b = .nan ∨ a.le b = true) :=
  (List.pairwise_insertionSort sortLe l).imp fun {a b} h => (sortLe_iff a b).mp h

theorem getAt_nat (l : List (Fl α)) (i : Int) (k : Nat) (hi : i = k) (hk : k < l.length) : getAt l i = .ok l[k] := by
  subst hi
  unfold getAt pyIndex
  rw [if_pos ⟨by omega, by exact_mod_cast hk⟩]
  simp [hk]

theorem isOrderStat_getElem (l : List (Fl α)) (k : Nat) (hk : k < (npSort l).length) : IsOrderStat l k (npSort l)[k] :=
  ⟨npSort l, npSort_perm l, npSort_sorted l, by simp [hk]⟩

theorem npSort_length (l : List (Fl α)) : (npSort l).length = l.length := (npSort_perm l).length_eq

theorem bootLoop_length (ops : EtaOps E β α) (rng : Rng W α) (B : Int) (k : Nat) (st st' : ArmState E β α × W) (l : List (Fl α))
    (h : bootLoop ops rng B k st = (.ok l, st')) : l.length = k := by
  induction k generalizing st l with
  | zero =>
    simp only [bootLoop, Py.pure_apply, Prod.mk.injEq, Except.ok.injEq] at h
    rw [← h.1]; rfl
  | succ k ih =>
    unfold bootLoop at h
    obtain ⟨f0, s1, -, h⟩ := bind_inv h
    obtain ⟨p, s2, -, h⟩ := bind_inv h
    obtain ⟨_, s3, -, h⟩ := bind_inv h
    obtain ⟨_, s4, -, h⟩ := bind_inv h
    obtain ⟨rest, s5, hr, h⟩ := bind_inv h
    have := ih s4 rest (by
      rw [hr]
      simp only [Py.pure_apply, Prod.mk.injEq, Except.ok.injEq] at h
      rw [h.2])
    simp only [Py.pure_apply, Prod.mk.injEq, Except.ok.injEq] at h
    rw [← h.1]; simp [this]

variable [IsStrictOrderedRing α] [FloorRing α]

/-- the two percentile indices (arms.py 367-368) -/
theorem percentile_idx (δ : α) (B : Int) (h0 : 0 < δ) (h1 : δ < 1) (hB : 1 ≤ B) :
    ∃ k : Nat, ⌊δ / 2 * (B : α)⌋ = (k : Int) ∧ 2 * k < B.toNat ∧ ⌈(1 - δ / 2) * (B : α)⌉ - 1 = ((B.toNat - 1 - k : Nat) : Int) ∧
      (k : Int) = ⌊δ * B / 2⌋ := by
  have hB' : (1 : α) ≤ B := by exact_mod_cast hB
  have hB0 : (0 : α) < B := lt_of_lt_of_le one_pos hB'
  have hnn : 0 ≤ δ / 2 * (B : α) := by positivity
  have hk : 0 ≤ ⌊δ / 2 * (B : α)⌋ := Int.floor_nonneg.mpr hnn
  have hlt : 2 * ⌊δ / 2 * (B : α)⌋ < B := by
    have h2 : ((⌊δ / 2 * (B : α)⌋ : Int) : α) ≤ δ / 2 * B := Int.floor_le _
    have h3 : δ * (B : α) < B := by nlinarith
    have : ((2 * ⌊δ / 2 * (B : α)⌋ : Int) : α) < (B : α) := by push_cast; linarith
    exact_mod_cast this
  have hceil : ⌈(1 - δ / 2) * (B : α)⌉ = B - ⌊δ / 2 * (B : α)⌋ := by
    have : (1 - δ / 2) * (B : α) = (B : α) - δ / 2 * B := by ring
    rw [this, show (B : α) - δ / 2 * B = -(δ / 2 * B) + (B : α) by ring, Int.ceil_add_intCast, Int.ceil_neg]
    ring
  refine ⟨⌊δ / 2 * (B : α)⌋.toNat, by omega, by omega, by rw [hceil]; omega, ?_⟩
  rw [Int.toNat_of_nonneg hk]
  congr 1; ring

/-- A successful bootstrap estimation. -/
theorem boot_inv {cfg : BootConfig β} {ops : EtaOps E β α} {rng : Rng W α} {δ : α} {st : ArmState E β α × W}
    {s' : ArmState E β α} {w' : W} {lo hi : Fl α} (h : bootEstimate cfg ops rng δ st = (.ok (lo, hi), s', w')) :
    ∃ B : Int, B = (if cfg.nBootstraps = 0 then ⌈4 / δ⌉ else cfg.nBootstraps) ∧ ∃ samples st1 st2,
      bootLoop ops rng B B.toNat st1 = (.ok samples, st2) ∧
      getAt (npSort samples) ⌊δ / 2 * (B : α)⌋ = .ok lo ∧ getAt (npSort samples) (⌈(1 - δ / 2) * (B : α)⌉ - 1) = .ok hi ∧
      s'.ci = (some lo, some hi) := by
  unfold bootEstimate at h
  obtain ⟨f0, s1, -, h⟩ := bind_inv h
  obtain ⟨_, s2, -, h⟩ := bind_inv h
  obtain ⟨samples, s3, h3, h⟩ := bind_inv h
  obtain ⟨lo', s4, h4, h⟩ := bind_inv h
  obtain ⟨hi', s5, h5, h⟩ := bind_inv h
  obtain ⟨_, s6, h6, h⟩ := bind_inv h
  obtain ⟨f1, s7, h7, h⟩ := bind_inv h
  obtain ⟨sc1, s8, h8, h⟩ := bind_inv h
  obtain ⟨_, s9, h9, h⟩ := bind_inv h
  obtain ⟨sc2, s10, h10, h⟩ := bind_inv h
  obtain ⟨_, s11, h11, h⟩ := bind_inv h
  simp only [Py.pure_apply, Prod.mk.injEq, Except.ok.injEq] at h
  obtain ⟨⟨rfl, rfl⟩, h⟩ := h
  simp only [Py.lift_apply, Prod.mk.injEq] at h4 h5
  refine ⟨_, rfl, samples, s2, s3, h3, h4.1, h5.1, ?_⟩
  simp only [Py.modify_apply, Prod.mk.injEq] at h6 h9 h11
  obtain ⟨rfl, -⟩ := fold_inv (s := s6.1) (w := s6.2) h7
  obtain ⟨e1, -, rfl⟩ := etaScore_inv h8
  have h9' := h9.2
  subst h9'
  obtain ⟨e2, -, rfl⟩ := etaScore_inv h10
  have h11' := h11.2
  subst h11'
  have h6' := h6.2
  subst h6'
  simp only [Prod.mk.injEq] at h
  rw [← h.1]

/-- the bootstrap loop succeeds when fitting and scoring do -/
theorem bootLoop_total (ops : EtaOps E β α) (rng : Rng W α) (B : Int) (hB : 1 ≤ B)
    (hfit : ∀ e x, (ops.fit e x).1 = .ok ()) (hscore : ∀ e x, ∃ sc, (ops.score e x).1 = .ok sc) (k : Nat)
    (s : ArmState E β α) (w : W) (f0 f1 : ExpData β) (hs : s.split = some [f0, f1]) (hwf : f0.WF) :
    ∃ l e w', bootLoop ops rng B k (s, w) = (.ok l, { s with eta := e }, w') := by
  induction k generalizing s w with
  | zero => exact ⟨[], s.eta, w, rfl⟩
  | succ k ih =>
    unfold bootLoop
    have hB' : (1 : α) ≤ B := by exact_mod_cast hB
    have hB0 : (B : α) ≠ 0 := by linarith [hB']
    have hp : (Fl.fin (1 : α)).div (.fin (B : α)) = .fin (1 / B) := by simp only [Fl.div, hB0, if_false]
    have h01 : (Fl.fin 0).le (Fl.fin (1 / (B : α))) = true ∧ (Fl.fin (1 / (B : α))).le (Fl.fin 1) = true := by
      simp only [Fl.le, Fl.lt, Fl.eq, Bool.or_eq_true, decide_eq_true_eq]
      constructor
      · left; have : (0 : α) < B := by linarith
        positivity
      · have : 1 / (B : α) ≤ 1 := by rw [div_le_one (by linarith)]; exact hB'
        exact this.lt_or_eq
    rw [Py.bind_ok (fold_ok hs rfl)]
    dsimp only
    rw [hp]
    obtain ⟨a, b, hab, -⟩ := C06_subsample_partition f0 hwf (.fin (1 / (B : α))) (rng.mask f0.nUnits (.fin (1 / (B : α))) w).1 h01
    rw [Py.bind_ok (show drawSubsample rng f0 (.fin (1 / (B : α))) (s, w) = (Except.ok (a, b), s, (rng.mask f0.nUnits (.fin (1 / (B : α))) w).2) from by
      simp only [drawSubsample, hab])]
    dsimp only
    rw [Py.bind_ok (etaFit_ok (Prod.ext (hfit s.eta a) rfl))]
    obtain ⟨sc, hsc⟩ := hscore (ops.fit s.eta a).2 b
    rw [Py.bind_ok (etaScore_ok (s := { s with eta := (ops.fit s.eta a).2 }) (Prod.ext hsc rfl))]
    obtain ⟨l, e, w', h⟩ := ih { s with eta := (ops.score (ops.fit s.eta a).2 b).2 } (rng.mask f0.nUnits (.fin (1 / (B : α))) w).2 hs
    rw [Py.bind_ok h]
    exact ⟨_, _, _, rfl⟩

theorem boot_total (cfg : BootConfig β) (ops : EtaOps E β α) (rng : Rng W α) (δ : α) (h0 : 0 < δ) (h1 : δ < 1)
    (hB : 0 ≤ cfg.nBootstraps) (hfit : ∀ e x, (ops.fit e x).1 = .ok ()) (hscore : ∀ e x, ∃ sc, (ops.score e x).1 = .ok sc)
    (h5 : 5 ≤ ⌈4 / δ⌉) (s : ArmState E β α) (w : W) (f0 f1 : ExpData β) (hs : s.split = some [f0, f1]) (hwf : f0.WF) :
    ∃ lo hi, (bootEstimate cfg ops rng δ (s, w)).1 = .ok (lo, hi) := by
  unfold bootEstimate
  rw [Py.bind_ok (fold_ok hs rfl), Py.bind_ok (etaFit_ok (Prod.ext (hfit s.eta f0) rfl))]
  dsimp only
  generalize hBB : (if cfg.nBootstraps = 0 then ⌈4 / δ⌉ else cfg.nBootstraps) = B
  have hB1 : 1 ≤ B := by
    rw [← hBB]; split
    · omega
    · omega
  obtain ⟨l, e, w', hl⟩ := bootLoop_total ops rng B hB1 hfit hscore B.toNat { s with eta := (ops.fit s.eta f0).2 } w f0 f1 hs hwf
  rw [Py.bind_ok hl]
  obtain ⟨k, k1, k2, k3, -⟩ := percentile_idx δ B h0 h1 hB1
  have hlen := bootLoop_length ops rng B B.toNat _ _ l hl
  have i1 : k < (npSort l).length := by rw [npSort_length]; omega
  have i2 : B.toNat - 1 - k < (npSort l).length := by rw [npSort_length]; omega
  rw [getAt_nat _ _ k k1 i1, Py.bind_ok (Py.lift_apply _ _), getAt_nat _ _ _ k3 i2, Py.bind_ok (Py.lift_apply _ _), Py.bind_ok (Py.modify_apply _ _)]
  dsimp only
  rw [Py.bind_ok (fold_ok (s := { s with eta := e, ci := _ }) (l := [f0, f1]) (d := f1) hs rfl)]
  obtain ⟨sc, hsc⟩ := hscore e f1
  rw [Py.bind_ok (etaScore_ok (s := { s with eta := e, ci := _ }) (Prod.ext hsc rfl)), Py.bind_ok (Py.modify_apply _ _)]
  dsimp only
  obtain ⟨sc2, hsc2⟩ := hscore (ops.score e f1).2 f1
  rw [Py.bind_ok (etaScore_ok (s := { s with eta := (ops.score e f1).2, ci := _, ate := _ }) (Prod.ext hsc2 rfl)), Py.bind_ok (Py.modify_apply _ _)]
  exact ⟨_, _, rfl⟩

end Arm
end Verif
