import Verif.Props.SizingMono
import Mathlib.Algebra.BigOperators.Intervals

/-!
# C104: mirroring the velocity model mirrors the sizes

Two calls of `get_sizing_function_from_segy` with the same options and bbox, the second with the velocity array
reversed along the second axis (x), the third axis (y), or both.
-/

namespace SM.Sizing

open Limgrad (GradedBy InGrid IsMin at3 Adjacent diameter gdist)

/-- Index `j` of an axis with `n` nodes, counted from the other end if `f`. -/
def mir (f : Bool) (n j : ℕ) : ℕ := if f then n - 1 - j else j

/-- `A'` is `A` reversed along the second axis if `f1` and along the third if `f2`. -/
def Mirrored {α : Type} (f1 f2 : Bool) (d0 d1 d2 : ℕ) (A A' : Arr α) : Prop :=
  ∀ i < d0, ∀ j < d1, ∀ k < d2, A' i j k = A i (mir f1 d1 j) (mir f2 d2 k)

theorem mir_lt {f : Bool} {n j : ℕ} (h : j < n) : mir f n j < n := by
  unfold mir; split <;> omega

theorem mir_mir {f : Bool} {n j : ℕ} (h : j < n) : mir f n (mir f n j) = j := by
  unfold mir; split <;> omega

theorem Mirrored.symm {α : Type} {f1 f2 : Bool} {d0 d1 d2 : ℕ} {A A' : Arr α}
    (h : Mirrored f1 f2 d0 d1 d2 A A') : Mirrored f1 f2 d0 d1 d2 A' A := by
  intro i hi j hj k hk
  rw [h i hi _ (mir_lt hj) _ (mir_lt hk), mir_mir hj, mir_mir hk]

/-- Both calls raise the same exception, or both return and the results are related. -/
def Same {α : Type} (R : α → α → Prop) : Except Err α → Except Err α → Prop
  | .error e, .error e' => e = e'
  | .ok a, .ok b => R a b
  | _, _ => False

section
variable {K : Type} [Field K] [LinearOrder K] [IsStrictOrderedRing K] [FloorSemiring K]

set_option linter.unusedSectionVars false

theorem reflect_mirror {n : ℕ} (hn : 0 < n) (k : ℤ) : reflect n ((n : ℤ) - 1 - k) = n - 1 - reflect n k := by
  have hN : (0 : ℤ) < 2 * n := by omega
  have hm0 := Int.emod_nonneg k hN.ne'
  have hm1 := Int.emod_lt_of_pos k hN
  have hk := Int.mul_ediv_add_emod k (2 * n)
  unfold reflect
  set m := k % (2 * n : ℤ) with hm
  set q := k / (2 * n : ℤ)
  have e : ((n : ℤ) - 1 - k) % (2 * n) = ((n : ℤ) - 1 - m) % (2 * n) := by
    have : (n : ℤ) - 1 - k = ((n : ℤ) - 1 - m) + (2 * n) * (-q) := by rw [← hk]; ring
    rw [this, Int.add_mul_emod_self_left]
  rw [e]
  by_cases h : m < n
  · have e2 : ((n : ℤ) - 1 - m) % (2 * n) = (n : ℤ) - 1 - m := Int.emod_eq_of_lt (by omega) (by omega)
    rw [e2]
    simp only
    rw [if_pos (by omega), if_pos (by omega)]
    omega
  · have e2 : ((n : ℤ) - 1 - m) % (2 * n) = 3 * n - 1 - m := by
      have : (n : ℤ) - 1 - m = (3 * n - 1 - m) + (2 * n) * (-1) := by ring
      rw [this, Int.add_mul_emod_self_left, Int.emod_eq_of_lt (by omega) (by omega)]
    rw [e2]
    simp only
    rw [if_neg (by omega), if_neg (by omega)]
    omega

theorem ufilt1_congr {w n : ℕ} (hn : 0 < n) {f g : ℕ → K} (h : ∀ x < n, f x = g x) {i : ℕ} (hi : i < n) :
    ufilt1 w n f i = ufilt1 w n g i := by
  unfold ufilt1
  split_ifs
  · exact h i hi
  · congr 1
    exact Finset.sum_congr rfl fun j _ => h _ (reflect_lt hn _)

/-- A window of odd length is symmetric about its node. -/
def Symmetric (f : Bool) (w : ℕ) : Prop := f = false ∨ w ≤ 1 ∨ w % 2 = 1

theorem ufilt1_mir {c : Bool} {w n : ℕ} (hw : Symmetric c w) (f : ℕ → K) {i : ℕ} (hi : i < n) :
    ufilt1 w n (fun j => f (mir c n j)) i = ufilt1 w n f (mir c n i) := by
  unfold ufilt1
  split_ifs with h1
  · rfl
  cases c with
  | false => rfl
  | true =>
    have hodd : w % 2 = 1 := by
      rcases hw with h | h | h
      · cases h
      · exact absurd h h1
      · exact h
    congr 1
    rw [← Finset.sum_range_reflect]
    refine Finset.sum_congr rfl fun j hj => ?_
    have hj := Finset.mem_range.1 hj
    simp only [mir, if_true]
    rw [← reflect_mirror (by omega)]
    have e : (n : ℤ) - 1 - ((i : ℤ) - ((w / 2 : ℕ) : ℤ) + ((w - 1 - j : ℕ) : ℤ)) =
        ((n - 1 - i : ℕ) : ℤ) - ((w / 2 : ℕ) : ℤ) + (j : ℤ) := by omega
    rw [e]

theorem ufilt_mir {f1 f2 : Bool} {d0 d1 d2 : ℕ} {w : ℕ × ℕ × ℕ} (h1 : Symmetric f1 w.2.1)
    (h2 : Symmetric f2 w.2.2) {A A' : Arr K} (h : Mirrored f1 f2 d0 d1 d2 A A') :
    Mirrored f1 f2 d0 d1 d2 (ufilt d0 d1 d2 w A) (ufilt d0 d1 d2 w A') := by
  have a0 : ∀ i < d0, ∀ j < d1, ∀ k < d2, ufilt1 w.1 d0 (fun i' => A' i' j k) i =
      ufilt1 w.1 d0 (fun i' => A i' (mir f1 d1 j) (mir f2 d2 k)) i := fun i hi j hj k hk =>
    ufilt1_congr (by omega) (fun i' hi' => h i' hi' j hj k hk) hi
  have a1 : ∀ i < d0, ∀ j < d1, ∀ k < d2,
      ufilt1 w.2.1 d1 (fun j' => ufilt1 w.1 d0 (fun i' => A' i' j' k) i) j =
      ufilt1 w.2.1 d1 (fun j' => ufilt1 w.1 d0 (fun i' => A i' j' (mir f2 d2 k)) i) (mir f1 d1 j) := by
    intro i hi j hj k hk
    rw [← ufilt1_mir h1 _ hj]
    exact ufilt1_congr (by omega) (fun j' hj' => a0 i hi j' hj' k hk) hj
  intro i hi j hj k hk
  simp only [ufilt]
  rw [← ufilt1_mir h2 _ hk]
  exact ufilt1_congr (by omega) (fun k' hk' => a1 i hi j hj k' hk') hk

theorem amax_mir {f1 f2 : Bool} {d0 d1 d2 : ℕ} (h0 : 0 < d0) (h1 : 0 < d1) (h2 : 0 < d2) {A A' : Arr K}
    (h : Mirrored f1 f2 d0 d1 d2 A A') : amax d0 d1 d2 A' = amax d0 d1 d2 A := by
  apply le_antisymm
  · exact amax_le _ h0 h1 h2 fun i hi j hj k hk => by
      rw [h i hi j hj k hk]; exact le_amax A hi (mir_lt hj) (mir_lt hk)
  · exact amax_le _ h0 h1 h2 fun i hi j hj k hk => by
      rw [h.symm i hi j hj k hk]; exact le_amax A' hi (mir_lt hj) (mir_lt hk)

theorem amin_mir {f1 f2 : Bool} {d0 d1 d2 : ℕ} (h0 : 0 < d0) (h1 : 0 < d1) (h2 : 0 < d2) {A A' : Arr K}
    (h : Mirrored f1 f2 d0 d1 d2 A A') : amin d0 d1 d2 A' = amin d0 d1 d2 A := by
  apply le_antisymm
  · exact le_amin _ h0 h1 h2 fun i hi j hj k hk => by
      rw [h.symm i hi j hj k hk]; exact amin_le A' hi (mir_lt hj) (mir_lt hk)
  · exact le_amin _ h0 h1 h2 fun i hi j hj k hk => by
      rw [h i hi j hj k hk]; exact amin_le A hi (mir_lt hj) (mir_lt hk)

theorem convertUnits_mir {f1 f2 : Bool} {d0 d1 d2 : ℕ} (u : String) {A A' : Arr K}
    (h : Mirrored f1 f2 d0 d1 d2 A A') :
    Mirrored f1 f2 d0 d1 d2 (convertUnits u A) (convertUnits u A') := by
  intro i hi j hj k hk
  unfold convertUnits
  split_ifs <;> simp only [h i hi j hj k hk]

theorem replaceWater_mir {f1 f2 : Bool} {d0 d1 d2 : ℕ} (w : Option K) {A A' : Arr K}
    (h : Mirrored f1 f2 d0 d1 d2 A A') :
    Same (Mirrored f1 f2 d0 d1 d2) (replaceWater d0 d1 d2 w A) (replaceWater d0 d1 d2 w A') := by
  have hg : waterGuard d0 d1 d2 A' = waterGuard d0 d1 d2 A := by
    rw [Bool.eq_iff_iff, waterGuard_iff, waterGuard_iff]
    constructor
    · rintro ⟨i, hi, j, hj, k, hk, hne, hv⟩
      exact ⟨i, hi, _, mir_lt hj, _, mir_lt hk, hne, by rw [← h i hi j hj k hk]; exact hv⟩
    · rintro ⟨i, hi, j, hj, k, hk, hne, hv⟩
      exact ⟨i, hi, _, mir_lt hj, _, mir_lt hk, hne, by rw [← h.symm i hi j hj k hk]; exact hv⟩
  unfold replaceWater
  rw [hg]
  split_ifs with g1
  · cases w with
    | none => rfl
    | some w =>
      simp only
      split_ifs
      · rfl
      · intro i hi j hj k hk
        simp only [fillWater, h i hi j hj k hk]
  · exact h

theorem gradientSizing_mir {f1 f2 : Bool} {d0 d1 d2 : ℕ} (h0 : 0 < d0) (h1 : 0 < d1) (h2 : 0 < d2)
    {w : ℕ × ℕ × ℕ} (s1 : Symmetric f1 w.2.1) (s2 : Symmetric f2 w.2.2) (grad : K) {A A' : Arr K}
    (h : Mirrored f1 f2 d0 d1 d2 A A') :
    Same (Mirrored f1 f2 d0 d1 d2) (gradientSizing d0 d1 d2 w A grad) (gradientSizing d0 d1 d2 w A' grad) := by
  have hv : Mirrored f1 f2 d0 d1 d2 (winVar d0 d1 d2 w A) (winVar d0 d1 d2 w A') := by
    intro i hi j hj k hk
    have e1 := ufilt_mir s1 s2 h i hi j hj k hk
    have e2 := ufilt_mir s1 s2 (A := fun i j k => A i j k ^ 2) (A' := fun i j k => A' i j k ^ 2)
      (fun i hi j hj k hk => by simp only [h i hi j hj k hk]) i hi j hj k hk
    simp only [winVar, e1, e2]
  unfold gradientSizing
  simp only
  rw [amax_mir h0 h1 h2 hv]
  split_ifs
  · intro i hi j hj k hk; rfl
  · rfl
  · intro i hi j hj k hk; rfl
  · · have hn : Mirrored f1 f2 d0 d1 d2
          (fun i j k => winVar d0 d1 d2 w A i j k / amax d0 d1 d2 (winVar d0 d1 d2 w A))
          (fun i j k => winVar d0 d1 d2 w A' i j k / amax d0 d1 d2 (winVar d0 d1 d2 w A)) :=
        fun i hi j hj k hk => by simp only [hv i hi j hj k hk]
      rw [amin_mir h0 h1 h2 hn]
      intro i hi j hj k hk
      simp only [hv i hi j hj k hk]

/-- The window is symmetric in the mirrored directions, or the gradient criterion is not in use. -/
def SymmetricWindow (f1 f2 : Bool) (o : Opts K) : Prop :=
  o.grad = 0 ∨ (Symmetric f1 o.window.2.1 ∧ Symmetric f2 o.window.2.2)

theorem requested_mir {f1 f2 : Bool} {d0 d1 d2 : ℕ} (h0 : 0 < d0) (h1 : 0 < d1) (h2 : 0 < d2)
    {o : Opts K} (hw : SymmetricWindow f1 f2 o) {A A' : Arr K} (h : Mirrored f1 f2 d0 d1 d2 A A') :
    Same (Mirrored f1 f2 d0 d1 d2) (requested d0 d1 d2 o A) (requested d0 d1 d2 o A') := by
  have hg : Same (Mirrored f1 f2 d0 d1 d2) (gradientSizing d0 d1 d2 o.window A o.grad)
      (gradientSizing d0 d1 d2 o.window A' o.grad) := by
    rcases hw with hw | ⟨s1, s2⟩
    · unfold gradientSizing
      rw [if_pos hw, if_pos hw]
      intro i hi j hj k hk; rfl
    · exact gradientSizing_mir h0 h1 h2 s1 s2 _ h
  have hl : Same (Mirrored f1 f2 d0 d1 d2) (wavelengthSizing A o.wl o.freq) (wavelengthSizing A' o.wl o.freq) := by
    unfold wavelengthSizing
    split_ifs
    · intro i hi j hj k hk; rfl
    · rfl
    · rfl
    · intro i hi j hj k hk
      simp only [h i hi j hj k hk]
  unfold requested
  split_ifs
  · revert hl hg
    cases wavelengthSizing A o.wl o.freq <;> cases wavelengthSizing A' o.wl o.freq <;>
      cases gradientSizing d0 d1 d2 o.window A o.grad <;> cases gradientSizing d0 d1 d2 o.window A' o.grad <;>
      simp only [Same] <;> intro hl hg <;> first | exact hl | exact hg | exact hl.elim | exact hg.elim | skip
    intro i hi j hj k hk
    simp only [hl i hi j hj k hk, hg i hi j hj k hk]
  · intro i hi j hj k hk; rfl

theorem finite_mir {f1 f2 : Bool} {d0 d1 d2 : ℕ} {A A' : Arr (Fl K)} (h : Mirrored f1 f2 d0 d1 d2 A A') :
    (finite d0 d1 d2 A = none ∧ finite d0 d1 d2 A' = none) ∨
    ∃ B B', finite d0 d1 d2 A = some B ∧ finite d0 d1 d2 A' = some B' ∧ Mirrored f1 f2 d0 d1 d2 B B' := by
  cases hA : finite d0 d1 d2 A with
  | none =>
    left
    refine ⟨rfl, ?_⟩
    cases hA' : finite d0 d1 d2 A' with
    | none => rfl
    | some B' =>
      obtain ⟨i, hi, j, hj, k, hk, hne⟩ := finite_none hA
      have := finite_some hA' hi (mir_lt (f := f1) hj) (mir_lt (f := f2) hk)
      rw [← h.symm i hi j hj k hk] at this
      exact absurd this (hne _)
  | some B =>
    right
    cases hA' : finite d0 d1 d2 A' with
    | none =>
      obtain ⟨i, hi, j, hj, k, hk, hne⟩ := finite_none hA'
      have := finite_some hA hi (mir_lt (f := f1) hj) (mir_lt (f := f2) hk)
      rw [← h i hi j hj k hk] at this
      exact absurd this (hne _)
    | some B' =>
      refine ⟨B, B', rfl, rfl, fun i hi j hj k hk => ?_⟩
      have e1 := finite_some hA' hi hj hk
      have e2 := finite_some hA hi (mir_lt (f := f1) hj) (mir_lt (f := f2) hk)
      rw [h i hi j hj k hk, e2] at e1
      injection e1 with e; exact e.symm

theorem courant_mir {f1 f2 : Bool} {d0 d1 d2 : ℕ} (dim : ℕ) (crMax dt so : K) {A A' C C' : Arr K}
    (h : Mirrored f1 f2 d0 d1 d2 A A') (hc : Mirrored f1 f2 d0 d1 d2 C C') :
    Same (Mirrored f1 f2 d0 d1 d2) (courant dim A C crMax dt so) (courant dim A' C' crMax dt so) := by
  unfold courant
  split_ifs
  · exact hc
  · rfl
  · rfl
  · rfl
  · intro i hi j hj k hk
    simp only [h i hi j hj k hk, hc i hi j hj k hk]

theorem pad1_congr {st : Style} {m : K} {n b a : ℕ} (hn : 0 < n) {f g : ℕ → K} (h : ∀ x < n, f x = g x) (i : ℕ) :
    pad1 st m n b a f i = pad1 st m n b a g i := by
  have e0 := h 0 hn
  have e1 := h (n - 1) (by omega)
  unfold pad1
  rw [e0, e1]
  split_ifs with h1 h2
  · rfl
  · exact h _ (by omega)
  · rfl

theorem pad1_mir {c : Bool} (st : Style) (m : K) {n : ℕ} (hn : 0 < n) (b : ℕ) (f : ℕ → K) {i : ℕ}
    (hi : i < n + 2 * b) :
    pad1 st m n b b (fun j => f (mir c n j)) i = pad1 st m n b b f (mir c (n + 2 * b) i) := by
  cases c with
  | false => rfl
  | true =>
    simp only [mir, if_true]
    unfold pad1
    by_cases h1 : i < b
    · rw [if_pos h1, if_neg (by omega), if_neg (by omega)]
      cases st with
      | edge => simp
      | constant => rfl
      | linearRamp =>
        simp only
        rw [show b - 1 - (n + 2 * b - 1 - i - b - n) = i by omega, Nat.sub_zero]
    · by_cases h2 : i < b + n
      · rw [if_neg h1, if_pos h2, if_neg (by omega), if_pos (by omega)]
        have e : n - 1 - (i - b) = n + 2 * b - 1 - i - b := by omega
        simp only [e]
      · rw [if_neg h1, if_neg h2, if_pos (by omega)]
        have e : n - 1 - (n - 1) = 0 := by omega
        cases st with
        | edge => simp only [e]
        | constant => rfl
        | linearRamp =>
          simp only [e]
          rw [show b - 1 - (i - b - n) = n + 2 * b - 1 - i by omega]

theorem pad3_mir {f1 f2 : Bool} (st : Style) (m : K) {d0 d1 d2 : ℕ} (h0 : 0 < d0) (h1 : 0 < d1) (h2 : 0 < d2)
    (b0 b1 b2 : ℕ) {A A' : Arr K} (h : Mirrored f1 f2 d0 d1 d2 A A') :
    Mirrored f1 f2 (d0 + b0) (d1 + 2 * b1) (d2 + 2 * b2) (pad3 st m d0 d1 d2 b0 b1 b2 A)
      (pad3 st m d0 d1 d2 b0 b1 b2 A') := by
  have a0 : ∀ i, ∀ j < d1, ∀ k < d2, pad1 st m d0 b0 0 (fun i' => A' i' j k) i =
      pad1 st m d0 b0 0 (fun i' => A i' (mir f1 d1 j) (mir f2 d2 k)) i := fun i j hj k hk =>
    pad1_congr h0 (fun i' hi' => h i' hi' j hj k hk) i
  have a1 : ∀ i, ∀ j < d1 + 2 * b1, ∀ k < d2,
      pad1 st m d1 b1 b1 (fun j' => pad1 st m d0 b0 0 (fun i' => A' i' j' k) i) j =
      pad1 st m d1 b1 b1 (fun j' => pad1 st m d0 b0 0 (fun i' => A i' j' (mir f2 d2 k)) i)
        (mir f1 (d1 + 2 * b1) j) := by
    intro i j hj k hk
    rw [← pad1_mir st m h1 b1 _ hj]
    exact pad1_congr h1 (fun j' hj' => a0 i j' hj' k hk) j
  intro i hi j hj k hk
  simp only [pad3]
  rw [← pad1_mir st m h2 b2 _ hk]
  exact pad1_congr h2 (fun k' hk' => a1 i j hj k' hk') k

/-- The relabelling of the nodes. -/
def mirrorRelabel (f1 f2 : Bool) (d0 d1 d2 : ℕ) : Limgrad.Relabel d0 d1 d2 d0 d1 d2 where
  map p := (p.1, mir f1 d1 p.2.1, mir f2 d2 p.2.2)
  inv p := (p.1, mir f1 d1 p.2.1, mir f2 d2 p.2.2)
  map_mem _ hp := ⟨hp.1, mir_lt hp.2.1, mir_lt hp.2.2⟩
  inv_mem _ hp := ⟨hp.1, mir_lt hp.2.1, mir_lt hp.2.2⟩
  map_inv p hp := by
    obtain ⟨i, j, k⟩ := p
    simp only [mir_mir hp.2.1, mir_mir hp.2.2]
  dist p q hp hq := by
    have := hp.2.1
    have := hq.2.1
    have := hp.2.2
    have := hq.2.2
    simp only [gdist, mir]
    split_ifs <;> omega

/-- **C104 (outcome).** Mirroring the velocity model changes neither whether the call raises, nor which exception,
nor whether the sizes are numbers. -/
theorem C104_same_outcome {imax : ℕ} {seps : K} {f1 f2 : Bool} {d0 d1 d2 : ℕ} {o : Opts K}
    {names : List String} {bbox : List K} {vp0 vp0' : Arr K} (h0 : 0 < d0) (h1 : 0 < d1) (h2 : 0 < d2)
    (hw : SymmetricWindow f1 f2 o) (hm : Mirrored f1 f2 d0 d1 d2 vp0 vp0') :
    Same (fun r r' => r = none ↔ r' = none) (sizing imax seps d0 d1 d2 o names bbox vp0)
      (sizing imax seps d0 d1 d2 o names bbox vp0') := by
  have hr := replaceWater_mir o.vpWater (convertUnits_mir o.units hm)
  unfold sizing
  cases ha : replaceWater d0 d1 d2 o.vpWater (convertUnits o.units vp0) with
  | error e =>
    cases ha' : replaceWater d0 d1 d2 o.vpWater (convertUnits o.units vp0') with
    | error e' => rw [ha, ha'] at hr; exact hr
    | ok V' => rw [ha, ha'] at hr; exact hr.elim
  | ok V =>
  cases ha' : replaceWater d0 d1 d2 o.vpWater (convertUnits o.units vp0') with
  | error e' => rw [ha, ha'] at hr; exact hr.elim
  | ok V' =>
  rw [ha, ha'] at hr
  change Mirrored f1 f2 d0 d1 d2 V V' at hr
  cases parseBbox bbox with
  | error e => rfl
  | ok bb =>
  cases checkNames names with
  | error e => rfl
  | ok u =>
  have hq := requested_mir h0 h1 h2 hw hr
  simp only
  cases hb : requested d0 d1 d2 o V with
  | error e =>
    cases hb' : requested d0 d1 d2 o V' with
    | error e' => rw [hb, hb'] at hq; exact hq
    | ok req' => rw [hb, hb'] at hq; exact hq.elim
  | ok req =>
  cases hb' : requested d0 d1 d2 o V' with
  | error e' => rw [hb, hb'] at hq; exact hq.elim
  | ok req' =>
  rw [hb, hb'] at hq
  change Mirrored f1 f2 d0 d1 d2 req req' at hq
  simp only
  have hf := finite_mir (A := fun i j k => clamp o.hmin o.hmax (req i j k))
    (A' := fun i j k => clamp o.hmin o.hmax (req' i j k))
    (f1 := f1) (f2 := f2) (d0 := d0) (d1 := d1) (d2 := d2)
    (fun i hi j hj k hk => by simp only [hq i hi j hj k hk])
  have hcm : Mirrored f1 f2 d0 d1 d2
      ((finite d0 d1 d2 fun i j k => clamp o.hmin o.hmax (req i j k)).getD fun _ _ _ => 0)
      ((finite d0 d1 d2 fun i j k => clamp o.hmin o.hmax (req' i j k)).getD fun _ _ _ => 0) := by
    rcases hf with ⟨e, e'⟩ | ⟨B, B', e, e', hB⟩
    · rw [e, e']; intro i hi j hj k hk; rfl
    · rw [e, e']; exact hB
  have hc := courant_mir bb.dim o.crMax o.dt o.spaceOrder hr hcm
  cases hd : courant bb.dim V ((finite d0 d1 d2 fun i j k => clamp o.hmin o.hmax (req i j k)).getD fun _ _ _ => 0)
      o.crMax o.dt o.spaceOrder with
  | error e =>
    cases hd' : courant bb.dim V' ((finite d0 d1 d2 fun i j k => clamp o.hmin o.hmax (req' i j k)).getD
        fun _ _ _ => 0) o.crMax o.dt o.spaceOrder with
    | error e' => rw [hd, hd'] at hc; exact hc
    | ok c' => rw [hd, hd'] at hc; exact hc.elim
  | ok c =>
  cases hd' : courant bb.dim V' ((finite d0 d1 d2 fun i j k => clamp o.hmin o.hmax (req' i j k)).getD
      fun _ _ _ => 0) o.crMax o.dt o.spaceOrder with
  | error e' => rw [hd, hd'] at hc; exact hc.elim
  | ok c' =>
  simp only
  have hge : ∀ A : Arr K, ∀ e, gradation imax seps d0 d1 d2 A o.grade (bb.zLen / d0) = .error e → e = .gradeNeg := by
    intro A e h
    unfold gradation at h
    split at h
    · cases h
    · cases h; rfl
  have hgi : ∀ A : Arr K, (∃ e, gradation imax seps d0 d1 d2 A o.grade (bb.zLen / d0) = .error e) ↔ o.grade < 0 := by
    intro A
    constructor
    · rintro ⟨e, h⟩
      rw [hge A e h] at h
      exact gradation_error.1 ⟨_, h⟩
    · intro h
      exact gradation_error.2 h
  cases he : gradation imax seps d0 d1 d2 c o.grade (bb.zLen / d0) with
  | error e =>
    obtain ⟨e', he'⟩ := (hgi c').2 ((hgi c).1 ⟨e, he⟩)
    rw [he']
    simp only [Same]
    rw [hge _ _ he, hge _ _ he']
  | ok g =>
  cases he' : gradation imax seps d0 d1 d2 c' o.grade (bb.zLen / d0) with
  | error e' =>
    obtain ⟨e, h⟩ := (hgi c).2 ((hgi c').1 ⟨e', he'⟩)
    rw [he] at h; cases h
  | ok g' =>
  have hfn : (finite d0 d1 d2 fun i j k => clamp o.hmin o.hmax (req i j k)) = none ↔
      (finite d0 d1 d2 fun i j k => clamp o.hmin o.hmax (req' i j k)) = none := by
    rcases hf with ⟨e, e'⟩ | ⟨B, B', e, e', hB⟩ <;> simp [e, e']
  simp only
  unfold buildPad
  split_ifs
  · rfl
  · cases parseStyle o.padStyle with
    | error e => rfl
    | ok st => cases bb <;> simpa only [Same, Option.map_eq_none_iff] using hfn
  · simpa only [Same, Option.map_eq_none_iff] using hfn

/-- The limiter converges under the range condition. -/
theorem gradation_converged {seps : K} {d0 d1 d2 : ℕ} {o : Opts K} {bbox : List K} {bb : Bbox K} {V : Arr K}
    {req : Arr (Fl K)} {cell cell1 cell2 : Arr K}
    (h0 : 0 < d0) (h1 : 0 < d1) (h2 : 0 < d2) (hs : 0 ≤ seps) (hb : OrderedBbox bbox)
    (hp : 0 < o.hmin) (hle : o.hmin ≤ o.hmax) (hbb : parseBbox bbox = .ok bb)
    (hf : finite d0 d1 d2 (fun i j k => clamp o.hmin o.hmax (req i j k)) = some cell)
    (hc : courant bb.dim V cell o.crMax o.dt o.spaceOrder = .ok cell1)
    (hg : gradation Limgrad.shippedCap seps d0 d1 d2 cell1 o.grade (bb.zLen / d0) = .ok cell2)
    (hgr : o.grade ≠ 0)
    (hr : o.hmax - o.hmin ≤ 9999 * (depthOf bbox / d0 * o.grade))
    (hdt : o.dt = 0 ∨ AllNodes d0 d1 d2 fun i j k => V i j k * o.dt * o.spaceOrder / o.crMax ≤ o.hmax) :
    IsMin d0 d1 d2 cell1 (amin d0 d1 d2 cell1) ∧ 0 ≤ amin d0 d1 d2 cell1 ∧ amin d0 d1 d2 cell1 ≤ o.hmax ∧
      Limgrad.enforceGradation Limgrad.shippedCap d0 d1 d2 seps cell1 o.grade (bb.zLen / d0) =
        .ok (cell2, true) := by
  have hst := cell_stages h0 h1 h2 hs hb hp hle hbb hf hc hg
  have hdim : 0 < bb.dim := by cases bb <;> simp [Bbox.dim]
  have hz : bb.zLen = depthOf bbox := depthOf_parse hbb
  obtain ⟨c, hlim⟩ := gradation_ok hg
  have hgpos : 0 < o.grade := by
    rcases Limgrad.enforce_ok hlim with ⟨h0', -, -⟩ | ⟨hpos, -, -⟩
    · exact absurd h0' hgr
    · exact hpos
  have he : 0 ≤ bb.zLen / d0 := div_nonneg (zLen_nonneg hb hbb) (by positivity)
  have hup : AllNodes d0 d1 d2 fun i j k => cell1 i j k ≤ o.hmax := by
    intro i hi j hj k hk
    obtain ⟨a1, a2, a3, a4, a5⟩ := hst i hi j hj k hk
    rcases courant_ok hc with ⟨-, rfl⟩ | ⟨hcr, hd, hso, e⟩
    · exact a2
    · rw [e, courant_max hdim (lt_of_lt_of_le hp a1) hcr hso]
      rcases hdt with hdt | hdt
      · exact absurd hdt hd.ne'
      · exact max_le a2 (hdt i hi j hj k hk)
  have hlo : AllNodes d0 d1 d2 fun i j k => o.hmin ≤ cell1 i j k := by
    intro i hi j hj k hk
    obtain ⟨a1, a2, a3, a4, a5⟩ := hst i hi j hj k hk
    exact a1.trans a3
  obtain ⟨i', hi', j', hj', k', hk', e⟩ := amin_attained cell1 h0 h1 h2
  have hmin : IsMin d0 d1 d2 cell1 (amin d0 d1 d2 cell1) :=
    ⟨fun p hp => amin_le cell1 hp.1 hp.2.1 hp.2.2, (i', j', k'), ⟨hi', hj', hk'⟩, e.symm⟩
  have hma : o.hmin ≤ amin d0 d1 d2 cell1 := le_amin cell1 h0 h1 h2 hlo
  have hmM : amin d0 d1 d2 cell1 ≤ o.hmax := (amin_le cell1 h0 h1 h2).trans (hup 0 h0 0 h1 0 h2)
  obtain ⟨R, hR, -⟩ := Limgrad.C03_shipped (M := o.hmax) (elen := bb.zLen / d0) (grade := o.grade) hs he hmin
    (hp.le.trans hma) hgpos (fun p hp => hup _ hp.1 _ hp.2.1 _ hp.2.2) (by rw [hz]; linarith)
  rw [hR] at hlim
  cases hlim
  exact ⟨hmin, hp.le.trans hma, hmM, hR⟩

/-- One direction of the comparison. -/
theorem mirror_le {seps : K} {f1 f2 : Bool} {d0 d1 d2 : ℕ} {o : Opts K} {names : List String}
    {bbox : List K} {vp0 vp0' V : Arr K} {out out' : Out K}
    (h0 : 0 < d0) (h1 : 0 < d1) (h2 : 0 < d2) (hs : 0 ≤ seps) (hb : OrderedBbox bbox)
    (hp : 0 < o.hmin) (hle : o.hmin ≤ o.hmax) (hw : SymmetricWindow f1 f2 o)
    (hm : Mirrored f1 f2 d0 d1 d2 vp0 vp0') (hV : Prepared d0 d1 d2 o vp0' V)
    (hrange : o.grade ≠ 0 → o.hmax - o.hmin ≤ 9999 * (depthOf bbox / d0 * o.grade) ∧
      (o.dt = 0 ∨ AllNodes d0 d1 d2 fun i j k => V i j k * o.dt * o.spaceOrder / o.crMax ≤ o.hmax))
    (h : sizing Limgrad.shippedCap seps d0 d1 d2 o names bbox vp0 = .ok (some out))
    (h' : sizing Limgrad.shippedCap seps d0 d1 d2 o names bbox vp0' = .ok (some out')) :
    out'.d0 = out.d0 ∧ out'.d1 = out.d1 ∧ out'.d2 = out.d2 ∧ out'.bbox = out.bbox ∧
    Mirrored f1 f2 out.d0 out.d1 out.d2 out.vp out'.vp ∧
    AllNodes out.d0 out.d1 out.d2 fun i j k =>
      out'.cell i j k ≤ out.cell i (mir f1 out.d1 j) (mir f2 out.d2 k) + tolerance seps d0 d1 d2 o := by
  obtain ⟨vp, bb, req, cell, cell1, cell2, hvp, hbb, -, hreq, hfi, hc, hg, hpad⟩ := sizing_some h
  obtain ⟨vp', bb', req', cell', cell1', cell2', hvp', hbb', -, hreq', hfi', hc', hg', hpad'⟩ := sizing_some h'
  have e1 : V = vp' := by unfold Prepared at hV; rw [hV] at hvp'; cases hvp'; rfl
  subst e1
  have e3 : bb' = bb := by rw [hbb] at hbb'; cases hbb'; rfl
  subst e3
  have mv : Mirrored f1 f2 d0 d1 d2 vp V := by
    have := replaceWater_mir o.vpWater (convertUnits_mir o.units hm)
    rw [hvp, hvp'] at this; exact this
  have mr : Mirrored f1 f2 d0 d1 d2 req req' := by
    have := requested_mir h0 h1 h2 hw mv
    rw [hreq, hreq'] at this; exact this
  have mc : Mirrored f1 f2 d0 d1 d2 cell cell' := by
    rcases finite_mir (A := fun i j k => clamp o.hmin o.hmax (req i j k))
      (A' := fun i j k => clamp o.hmin o.hmax (req' i j k)) (f1 := f1) (f2 := f2) (d0 := d0) (d1 := d1) (d2 := d2)
      (fun i hi j hj k hk => by simp only [mr i hi j hj k hk]) with ⟨e, -⟩ | ⟨B, B', e, e', hB⟩
    · rw [hfi] at e; cases e
    · rw [hfi] at e; rw [hfi'] at e'; cases e; cases e'; exact hB
  have mc1 : Mirrored f1 f2 d0 d1 d2 cell1 cell1' := by
    have := courant_mir bb'.dim o.crMax o.dt o.spaceOrder mv mc
    rw [hc, hc'] at this; exact this
  have mc2 : AllNodes d0 d1 d2 fun i j k =>
      cell2' i j k ≤ cell2 i (mir f1 d1 j) (mir f2 d2 k) + tolerance seps d0 d1 d2 o := by
    obtain ⟨c, hlim⟩ := gradation_ok hg
    obtain ⟨c', hlim'⟩ := gradation_ok hg'
    intro i hi j hj k hk
    by_cases hgr : o.grade = 0
    · have ec : cell2 = cell1 := by
        rcases Limgrad.enforce_ok hlim with ⟨-, e, -⟩ | ⟨hpos, -, -⟩
        · exact e
        · exact absurd hgr hpos.ne'
      have ec' : cell2' = cell1' := by
        rcases Limgrad.enforce_ok hlim' with ⟨-, e, -⟩ | ⟨hpos, -, -⟩
        · exact e
        · exact absurd hgr hpos.ne'
      rw [ec, ec', tolerance, if_pos hgr, add_zero]
      exact (mc1 i hi j hj k hk).le
    · obtain ⟨hr, hdt⟩ := hrange hgr
      obtain ⟨hmin, hm0, hmM, hR⟩ := gradation_converged h0 h1 h2 hs hb hp hle hbb hfi' hc' hg' hgr hr hdt
      have he : 0 ≤ bb'.zLen / d0 := div_nonneg (zLen_nonneg hb hbb) (by positivity)
      have key := Limgrad.C92_relabel (mirrorRelabel f1 f2 d0 d1 d2) hs he hmin hm0 hgr (A' := cell1)
        (fun p hp => by
          simp only [mirrorRelabel, at3]
          exact (mc1 p.1 hp.1 p.2.1 hp.2.1 p.2.2 hp.2.2).symm) hR hlim (p := (i, j, k)) ⟨hi, hj, hk⟩
      simp only [at3, mirrorRelabel] at key
      rw [tolerance, if_neg hgr]
      have : (diameter d0 d1 d2 : K) * (amin d0 d1 d2 cell1' * seps) ≤ diameter d0 d1 d2 * (o.hmax * seps) :=
        mul_le_mul_of_nonneg_left (mul_le_mul_of_nonneg_right hmM hs) (by positivity)
      linarith
  have hshape : out'.d0 = out.d0 ∧ out'.d1 = out.d1 ∧ out'.d2 = out.d2 ∧ out'.bbox = out.bbox := by
    unfold buildPad at hpad hpad'
    split_ifs at hpad hpad' with g1 g2
    · cases hps : parseStyle o.padStyle with
      | error e => rw [hps] at hpad; cases hpad
      | ok st =>
        rw [hps] at hpad hpad'
        cases bb' with
        | two => simp only [Except.ok.injEq] at hpad hpad'; subst hpad hpad'; exact ⟨rfl, rfl, rfl, rfl⟩
        | three => simp only [Except.ok.injEq] at hpad hpad'; subst hpad hpad'; exact ⟨rfl, rfl, rfl, rfl⟩
    · cases hpad; cases hpad'; exact ⟨rfl, rfl, rfl, rfl⟩
  refine ⟨hshape.1, hshape.2.1, hshape.2.2.1, hshape.2.2.2, ?_⟩
  set T := tolerance seps d0 d1 d2 o with hT
  rcases buildPad_ok hpad with ⟨hz0, rfl⟩ | ⟨hzp, st, b0, b1, b2, hps, f0, f1', f2', fc, fv⟩
  · rcases buildPad_ok hpad' with ⟨-, rfl⟩ | ⟨hzp, -⟩
    · exact ⟨mv, mc2⟩
    · rw [hz0] at hzp; exact absurd hzp (lt_irrefl _)
  · rcases buildPad_ok hpad' with ⟨hz0, -⟩ | ⟨-, st', b0', b1', b2', hps', g0, g1, g2, gc, gv⟩
    · exact absurd hz0 hzp.ne'
    · rw [hps] at hps'
      cases hps'
      have eb : b0' = b0 ∧ b1' = b1 ∧ b2' = b2 := by
        obtain ⟨s0, s1, s2, -⟩ := hshape
        omega
      obtain ⟨rfl, rfl, rfl⟩ := eb
      rw [f0, f1', f2', fc, gc, fv, gv, amax_mir h0 h1 h2 mv]
      refine ⟨pad3_mir st _ h0 h1 h2 b0' b1' b2' mv, ?_⟩
      intro i hi j hj k hk
      set M : Arr K := fun i j k => cell2 i (mir f1 d1 j) (mir f2 d2 k) with hM
      have hmx : (1 : K) * amax d0 d1 d2 cell2' ≤ 1 * (1 * amax d0 d1 d2 cell2 + 1 * T) := by
        obtain ⟨i', hi', j', hj', k', hk', e⟩ := amax_attained cell2' h0 h1 h2
        rw [e]
        have := mc2 i' hi' j' hj' k' hk'
        have := le_amax cell2 hi' (mir_lt (f := f1) hj') (mir_lt (f := f2) hk')
        linarith
      have := pad3_lin_le (st := st) (b0 := b0') (b1 := b1') (b2 := b2') (A := cell2')
        (B := fun i j k => 1 * M i j k + 1 * T) hmx h0 h1 h2
        (fun i hi j hj k hk => by have := mc2 i hi j hj k hk; simp only [hM]; linarith) hi hj hk
      rw [pad3_lin st 1 1 _ T d0 d1 d2 b0' b1' b2' M (fun _ _ _ => T), pad3_const,
        pad3_mir (f1 := f1) (f2 := f2) st _ h0 h1 h2 b0' b1' b2' (A := cell2) (A' := M)
          (fun i hi j hj k hk => rfl) i hi j hj k hk] at this
      linarith

/-- **C104 (partial).** If the velocity array is mirrored in x, in y or in both, the sizing function has the same grid and
bbox, its velocities are the mirrored ones exactly, and its sizes are the mirrored ones up to the tolerance of the
limiter (exactly, without gradation). Missing: the gradient criterion with a stencil that is even in a mirrored direction, where the statement is false
(`C104_even_stencil_false`), and, with gradation, size ranges of more than 9999 steps of the limiter. -/
theorem C104_mirror_partial {seps : K} {f1 f2 : Bool} {d0 d1 d2 : ℕ} {o : Opts K} {names : List String}
    {bbox : List K} {vp0 vp0' V : Arr K} {out out' : Out K}
    (h0 : 0 < d0) (h1 : 0 < d1) (h2 : 0 < d2) (hs : 0 ≤ seps) (hb : OrderedBbox bbox)
    (hp : 0 < o.hmin) (hle : o.hmin ≤ o.hmax) (hw : SymmetricWindow f1 f2 o)
    (hm : Mirrored f1 f2 d0 d1 d2 vp0 vp0') (hV : Prepared d0 d1 d2 o vp0 V)
    (hrange : o.grade ≠ 0 → o.hmax - o.hmin ≤ 9999 * (depthOf bbox / d0 * o.grade) ∧
      (o.dt = 0 ∨ AllNodes d0 d1 d2 fun i j k => V i j k * o.dt * o.spaceOrder / o.crMax ≤ o.hmax))
    (h : sizing Limgrad.shippedCap seps d0 d1 d2 o names bbox vp0 = .ok (some out))
    (h' : sizing Limgrad.shippedCap seps d0 d1 d2 o names bbox vp0' = .ok (some out')) :
    out'.d0 = out.d0 ∧ out'.d1 = out.d1 ∧ out'.d2 = out.d2 ∧ out'.bbox = out.bbox ∧
    Mirrored f1 f2 out.d0 out.d1 out.d2 out.vp out'.vp ∧
    AllNodes out.d0 out.d1 out.d2 fun i j k =>
      |out'.cell i j k - out.cell i (mir f1 out.d1 j) (mir f2 out.d2 k)| ≤ tolerance seps d0 d1 d2 o := by
  obtain ⟨W, hW, mW⟩ : ∃ W, Prepared d0 d1 d2 o vp0' W ∧ Mirrored f1 f2 d0 d1 d2 V W := by
    have := replaceWater_mir o.vpWater (convertUnits_mir o.units hm)
    unfold Prepared at hV
    rw [hV] at this
    unfold Prepared
    cases hx : replaceWater d0 d1 d2 o.vpWater (convertUnits o.units vp0') with
    | error e => rw [hx] at this; exact this.elim
    | ok W => rw [hx] at this; exact ⟨W, rfl, this⟩
  obtain ⟨a0, a1, a2, a3, a4, a5⟩ := mirror_le h0 h1 h2 hs hb hp hle hw hm hW (fun hg => by
    obtain ⟨r1, r2⟩ := hrange hg
    refine ⟨r1, r2.imp id fun r i hi j hj k hk => ?_⟩
    simp only [mW i hi j hj k hk]
    exact r i hi _ (mir_lt hj) _ (mir_lt hk)) h h'
  obtain ⟨-, -, -, -, -, b5⟩ := mirror_le h0 h1 h2 hs hb hp hle hw hm.symm hV hrange h' h
  refine ⟨a0, a1, a2, a3, a4, fun i hi j hj k hk => ?_⟩
  have t1 := a5 i hi j hj k hk
  have t2 := b5 i (by rw [a0]; exact hi) (mir f1 out.d1 j) (by rw [a1]; exact mir_lt hj)
    (mir f2 out.d2 k) (by rw [a2]; exact mir_lt hk)
  simp only [a1, a2, mir_mir hj, mir_mir hk] at t2
  show |_| ≤ _
  rw [abs_le]
  constructor <;> linarith

end
end SM.Sizing

namespace SM.Interp

open Sizing (Out Bbox mir Mirrored)

variable {K : Type} [Field K] [LinearOrder K] [IsStrictOrderedRing K]

/-- The mirror image of a point in the middle plane(s) of a bbox. -/
def mirPoint (f1 f2 : Bool) : Bbox K → List K → List K
  | .two _ _ x0 x1, [z, x] => [z, if f1 then x0 + x1 - x else x]
  | .three _ _ x0 x1 y0 y1, [z, x, y] => [z, if f1 then x0 + x1 - x else x, if f2 then y0 + y1 - y else y]
  | _, p => p

/-- One axis of `interp`, with the cell the search finds. -/
def seg (a : Axis K) (f : ℕ → K) (x : K) : K := lin1 a f (cellIdx a x) x

theorem seg_congr {a b : K} {n : ℕ} (hn : 2 ≤ n) (hab : a < b) {x : K} (h1 : a ≤ x) (h2 : x ≤ b)
    {f g : ℕ → K} (h : ∀ i < n, f i = g i) : seg (linspace a b n) f x = seg (linspace a b n) g x := by
  have hg := linspace_good hn hab
  obtain ⟨i, hi, hx1, hx2⟩ := exists_cell hg (by rw [linspace_first]; exact h1)
    (x := x) (by change x ≤ (linspace a b n).node (n - 1); rw [linspace_last _ _ hn]; exact h2)
  have hi' : i + 1 < n := hi
  have e1 := step_eq hg hi hx1 hx2 f
  have e2 := step_eq hg hi hx1 hx2 g
  unfold seg lin1
  rw [e1, e2, h i (by omega), h (i + 1) hi']

theorem seg_mir {f1 : Bool} {a b : K} {n : ℕ} (hn : 2 ≤ n) (hab : a < b) {x : K} (h1 : a ≤ x) (h2 : x ≤ b)
    (f : ℕ → K) : seg (linspace a b n) (fun j => f (mir f1 n j)) x =
      seg (linspace a b n) f (if f1 then a + b - x else x) := by
  cases f1 with
  | false => rfl
  | true =>
    simp only [mir, if_true]
    have hg := linspace_good hn hab
    obtain ⟨i, hi, hx1, hx2⟩ := exists_cell hg (by rw [linspace_first]; exact h1)
      (x := x) (by change x ≤ (linspace a b n).node (n - 1); rw [linspace_last _ _ hn]; exact h2)
    have hi' : i + 1 < n := hi
    have hn1 : ((n : K) - 1) ≠ 0 := by
      have : (2 : K) ≤ n := by exact_mod_cast hn
      intro h; linarith
    have hnode : ∀ k < n, (linspace a b n).node (n - 1 - k) = a + b - (linspace a b n).node k := by
      intro k hk
      simp only [linspace]
      rw [Nat.cast_sub (by omega), Nat.cast_sub (by omega), Nat.cast_one]
      field_simp
      ring
    have e1 := hnode i (by omega)
    have e2 := hnode (i + 1) hi'
    rw [show n - 1 - (i + 1) = n - 2 - i by omega] at e2
    rw [show n - 1 - i = n - 2 - i + 1 by omega] at e1
    have s1 := step_eq hg hi hx1 hx2 fun j => f (n - 1 - j)
    have s2 := step_eq hg (i := n - 2 - i) (x := a + b - x) (show n - 2 - i + 1 < n by omega)
      (by rw [e2]; linarith) (by rw [e1]; linarith) f
    unfold seg lin1
    rw [s1, s2, e1, e2, show n - 1 - i = n - 2 - i + 1 by omega, show n - 1 - (i + 1) = n - 2 - i by omega]
    have hgap : (linspace a b n).node (i + 1) - (linspace a b n).node i ≠ 0 :=
      (sub_pos.2 (hg.2 i (i + 1) (by omega))).ne'
    generalize (linspace a b n).node (i + 1) = u at *
    generalize (linspace a b n).node i = v at *
    have hd : a + b - v - (a + b - u) = u - v := by ring
    rw [hd]
    field_simp
    ring

theorem interp_two (a b : Axis K) (A : List ℕ → K) (x y : K) :
    interp [a, b] A [x, y] = seg a (fun i => seg b (fun j => A [i, j]) y) x := rfl

theorem interp_three (a b c : Axis K) (A : List ℕ → K) (x y z : K) :
    interp [a, b, c] A [x, y, z] = seg a (fun i => seg b (fun j => seg c (fun k => A [i, j, k]) z) y) x := rfl

/-- The interpolant of a mirrored grid is the mirrored interpolant. -/
theorem sizeEval_mir {f1 f2 : Bool} {out : Out K} (hpr : Proper out) {x : List K} (hin : InBbox out.bbox x) :
    sizeEval { out with cell := fun i j k => out.cell i (mir f1 out.d1 j) (mir f2 out.d2 k) } x =
      sizeEval out (mirPoint f1 f2 out.bbox x) := by
  obtain ⟨d0, d1, d2, cell, vp, bb⟩ := out
  cases bb with
  | two z0 z1 x0 x1 =>
    match x, hin with
    | [z, x], ⟨a1, a2, b1, b2⟩ =>
      obtain ⟨n0, n1, hz, hx, e⟩ := hpr
      simp only at n0 n1 e
      subst e
      simp only [sizeEval, axes, mirPoint, interp_two, ofArr]
      refine seg_congr n0 hz a1 a2 fun i _ => ?_
      rw [show mir f2 1 0 = 0 by unfold mir; split <;> rfl]
      exact seg_mir n1 hx b1 b2 fun j => cell i j 0
  | three z0 z1 x0 x1 y0 y1 =>
    match x, hin with
    | [z, x, y], ⟨a1, a2, b1, b2, c1, c2⟩ =>
      obtain ⟨n0, n1, hz, hx, hy, n2⟩ := hpr
      simp only at n0 n1 n2
      simp only [sizeEval, axes, mirPoint, interp_three, ofArr]
      refine seg_congr n0 hz a1 a2 fun i _ => ?_
      rw [← seg_mir n1 hx b1 b2]
      refine seg_congr n1 hx b1 b2 fun j _ => ?_
      exact seg_mir n2 hy c1 c2 fun k => cell i (mir f1 d1 j) k

/-- Two size functions on the same grid whose grids differ by at most `T` differ by at most `T` in the bbox. -/
theorem sizeEval_close {out out' : Out K} (e0 : out'.d0 = out.d0) (e1 : out'.d1 = out.d1) (e2 : out'.d2 = out.d2)
    (eb : out'.bbox = out.bbox) {T : K}
    (hall : Sizing.AllNodes out.d0 out.d1 out.d2 fun i j k => |out'.cell i j k - out.cell i j k| ≤ T)
    (hpr : Proper out) {x : List K} (hin : InBbox out.bbox x) : |sizeEval out' x - sizeEval out x| ≤ T := by
  obtain ⟨m0, m1, m2, mc, mv, mb⟩ := out
  obtain ⟨n0, n1, n2, nc, nv, nb⟩ := out'
  simp only at e0 e1 e2 eb hall
  subst e0 e1 e2 eb
  have hD := C19_size_function_bounds ⟨n0, n1, n2, fun i j k => nc i j k - mc i j k, mv, nb⟩ hpr
    (-T) T (fun i hi j hj k hk => abs_le.1 (hall i hi j hj k hk)) x hin
  have e : ofArr (fun i j k => nc i j k - mc i j k) = fun js => ofArr nc js - ofArr mc js := by
    funext js
    unfold ofArr
    split <;> simp
  simp only [sizeEval] at hD ⊢
  rw [e, interp_sub] at hD
  exact abs_le.2 hD

/-- **C104, everywhere.** Under the hypotheses of `C104_mirror_partial`, the size at a point of the bbox of the mirrored
model is, up to the tolerance, the size of the original model at the mirror image of the point. -/
theorem C104_everywhere_partial [FloorSemiring K] {seps : K} {f1 f2 : Bool} {d0 d1 d2 : ℕ} {o : Sizing.Opts K}
    {names : List String} {bbox : List K} {vp0 vp0' V : Sizing.Arr K} {out out' : Out K}
    (h0 : 0 < d0) (h1 : 0 < d1) (h2 : 0 < d2) (hs : 0 ≤ seps) (hb : Sizing.OrderedBbox bbox)
    (hp : 0 < o.hmin) (hle : o.hmin ≤ o.hmax) (hw : Sizing.SymmetricWindow f1 f2 o)
    (hm : Mirrored f1 f2 d0 d1 d2 vp0 vp0') (hV : Sizing.Prepared d0 d1 d2 o vp0 V)
    (hrange : o.grade ≠ 0 → o.hmax - o.hmin ≤ 9999 * (Sizing.depthOf bbox / d0 * o.grade) ∧
      (o.dt = 0 ∨ Sizing.AllNodes d0 d1 d2 fun i j k => V i j k * o.dt * o.spaceOrder / o.crMax ≤ o.hmax))
    (h : Sizing.sizing Limgrad.shippedCap seps d0 d1 d2 o names bbox vp0 = .ok (some out))
    (h' : Sizing.sizing Limgrad.shippedCap seps d0 d1 d2 o names bbox vp0' = .ok (some out'))
    (hpr : Proper out) {x : List K} (hin : InBbox out.bbox x) :
    |sizeEval out' x - sizeEval out (mirPoint f1 f2 out.bbox x)| ≤ Sizing.tolerance seps d0 d1 d2 o := by
  obtain ⟨a0, a1, a2, a3, -, a5⟩ := Sizing.C104_mirror_partial h0 h1 h2 hs hb hp hle hw hm hV hrange h h'
  rw [← sizeEval_mir hpr hin]
  exact sizeEval_close
    (out := { out with cell := fun i j k => out.cell i (mir f1 out.d1 j) (mir f2 out.d2 k) })
    a0 a1 a2 a3 a5 hpr hin

end SM.Interp

namespace SM.Sizing

/-! ### The default stencil is not symmetric -/

/-- The gradient criterion with the default stencil of 10 nodes. -/
def stencilOpts : Opts ℚ := { Opts.default with hmin := 1, grad := 10 }

/-- Two rows of the velocities 1, 2, 4. -/
def stencilV : Arr ℚ := fun _ j _ => 2 ^ j

/-- The same, read from right to left. -/
def stencilW : Arr ℚ := fun _ j _ => 2 ^ (2 - j)

/-- **C104, the stencil.** With the default `stencil_size` of 10 (any even size) the window is not centred on its
node, and the sizes of the mirrored model are not the mirrored sizes: 1, 2, 4 in each row, gradient criterion only,
no gradation, no padding. -/
theorem C104_even_stencil_false :
    Mirrored true false 2 3 1 stencilV stencilW ∧
    ∃ out out', sizing Limgrad.shippedCap (1 / 67108864) 2 3 1 stencilOpts [] [0, 2, 0, 3] stencilV = .ok (some out) ∧
      sizing Limgrad.shippedCap (1 / 67108864) 2 3 1 stencilOpts [] [0, 2, 0, 3] stencilW = .ok (some out') ∧
      out'.cell 0 0 0 ≠ out.cell 0 2 0 := by
  refine ⟨?_, ?_⟩
  · intro i _ j hj k _
    simp only [stencilV, stencilW, mir, if_true]
  have key : okAnd (K := ℚ) (sizing Limgrad.shippedCap (1 / 67108864) 2 3 1 stencilOpts [] [0, 2, 0, 3] stencilV)
      (fun out => match sizing Limgrad.shippedCap (1 / 67108864) 2 3 1 stencilOpts [] [0, 2, 0, 3] stencilW with
        | .ok (some out') => decide (out'.cell 0 0 0 ≠ out.cell 0 2 0)
        | _ => false) = true := by decide +kernel
  obtain ⟨out, e1, e2⟩ := okAnd_spec key
  refine ⟨out, ?_⟩
  split at e2
  · rename_i out' h'
    exact ⟨out', e1, h', of_decide_eq_true e2⟩
  · cases e2

/-! ### Example -/

/-- An odd stencil, gradient and wavelength criterion, gradation and padding. -/
def mirrorOpts : Opts ℚ :=
  { Opts.default with
    hmin := 1, hmax := 20, wl := 5, freq := 1 / 10, grad := 10, grade := 1, window := (3, 3, 3), domainPad := 1,
    padStyle := "linear_ramp" }

/-- The hypotheses are met by a model that is not symmetric, with gradation, padding and both criteria. -/
example : ∃ out out', sizing Limgrad.shippedCap (1 / 67108864) 2 3 1 mirrorOpts [] [0, 2, 0, 3] stencilV = .ok (some out) ∧
    sizing Limgrad.shippedCap (1 / 67108864) 2 3 1 mirrorOpts [] [0, 2, 0, 3] stencilW = .ok (some out') ∧
    out.d1 = 5 ∧ out.cell 1 1 0 ≠ out.cell 1 3 0 ∧
    AllNodes out.d0 out.d1 out.d2 fun i j k =>
      |out'.cell i j k - out.cell i (mir true out.d1 j) (mir false out.d2 k)| ≤
        tolerance (1 / 67108864) 2 3 1 mirrorOpts := by
  have key : okAnd (K := ℚ) (sizing Limgrad.shippedCap (1 / 67108864) 2 3 1 mirrorOpts [] [0, 2, 0, 3] stencilV)
      (fun out => decide (out.d1 = 5 ∧ out.cell 1 1 0 ≠ out.cell 1 3 0)) = true := by decide +kernel
  have key' : okAnd (K := ℚ) (sizing Limgrad.shippedCap (1 / 67108864) 2 3 1 mirrorOpts [] [0, 2, 0, 3] stencilW)
      (fun _ => true) = true := by decide +kernel
  obtain ⟨out, e1, e2⟩ := okAnd_spec key
  obtain ⟨out', e1', -⟩ := okAnd_spec key'
  have e2 := of_decide_eq_true e2
  refine ⟨out, out', e1, e1', e2.1, e2.2, ?_⟩
  refine (C104_mirror_partial (V := stencilV) (by norm_num) (by norm_num) (by norm_num) (by norm_num)
    (by norm_num [OrderedBbox]) (by norm_num [mirrorOpts]) (by norm_num [mirrorOpts])
    (.inr ⟨.inr (.inr rfl), .inl rfl⟩) C104_even_stencil_false.1 ?_ ?_ e1 e1').2.2.2.2.2
  · have e : convertUnits "m-s" stencilV = stencilV := by
      unfold convertUnits
      rw [if_neg (by decide), if_neg (by decide)]
    have g : waterGuard 2 3 1 stencilV = false := by decide +kernel
    change replaceWater 2 3 1 _ (convertUnits "m-s" stencilV) = _
    rw [e]
    simp only [replaceWater, g]
    rfl
  · intro _
    exact ⟨by norm_num [mirrorOpts, depthOf], .inl rfl⟩

end SM.Sizing
