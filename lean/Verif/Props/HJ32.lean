import Verif.Model.HJ32
import Verif.Props.NativeHJ
import Mathlib.Tactic.Linarith
import Mathlib.Tactic.Positivity
import Verif.Lemmas.Binary64
import Mathlib.NumberTheory.LucasLehmer

/-!
# C105: the gradient limiter in 32-bit arithmetic

`limgrad` computes node numbers in 32-bit `int`s and one of them through a `double` quotient. Up to `2^31 - 2` nodes this is
exact; from `2^31 - 1` nodes on no call returns.
-/

set_option linter.unusedSectionVars false

namespace SM.HJ32

open SM.Native SM.NativeHJ

variable {K : Type} [Field K] [LinearOrder K] [IsStrictOrderedRing K]

/-- What is used of the rounding of `double` arithmetic: whole numbers are kept and the relative error is at most
`2^-53`, for the quotients of two positive 32-bit numbers. -/
structure Rounds (rnd : ℚ → ℚ) : Prop where
  whole : ∀ n : ℤ, 1 ≤ n → n < 2147483648 → rnd n = n
  close : ∀ q : ℚ, 1 / 2147483648 ≤ q → q ≤ 2147483648 → |rnd q - q| ≤ q / 9007199254740992

/-- Rounding to 53 significant bits has these properties. -/
theorem binary64_rounds : Rounds Fl.binary64 := by
  refine ⟨fun n h1 h2 => Fl.binary64_int h1 (by omega), fun q h1 _ => ?_⟩
  have hpos : 0 < q := lt_of_lt_of_le (by norm_num) h1
  have := Fl.binary64_error q
  rw [abs_of_pos hpos] at this
  linarith

/-- **C105 (the quotient).** The rounded quotient of two positive 32-bit numbers has the same ceiling as the exact one. -/
theorem C105_quotient {rnd : ℚ → ℚ} (hr : Rounds rnd) {n a : ℤ} (hn : 1 ≤ n) (hn' : n < 2147483648) (ha : 1 ≤ a)
    (ha' : a < 2147483648) : ⌈rnd ((n : ℚ) / a)⌉ = ⌈(n : ℚ) / a⌉ := by
  have haq : (0 : ℚ) < a := by exact_mod_cast ha
  have hnq : (1 : ℚ) ≤ n := by exact_mod_cast hn
  have hnq' : (n : ℚ) < 2147483648 := by exact_mod_cast hn'
  have haq1 : (1 : ℚ) ≤ a := by exact_mod_cast ha
  have haq' : (a : ℚ) < 2147483648 := by exact_mod_cast ha'
  set k := ⌈(n : ℚ) / a⌉ with hk
  have h1 : (n : ℚ) / a ≤ k := Int.le_ceil _
  have h2 : (k : ℚ) - 1 < (n : ℚ) / a := by have := Int.ceil_lt_add_one ((n : ℚ) / a); linarith
  rw [div_le_iff₀ haq] at h1
  rw [lt_div_iff₀ haq] at h2
  have h1' : n ≤ k * a := by exact_mod_cast h1
  have h2' : (k - 1) * a < n := by exact_mod_cast h2
  have hk1 : 1 ≤ k := by
    by_contra hc
    have : k * a ≤ 0 := by nlinarith
    omega
  have hkn : k ≤ n := by nlinarith
  rcases h1'.lt_or_eq with hlt | heq
  · have hge : (k - 1) * a + 1 ≤ n := h2'
    have hle : n + 1 ≤ k * a := hlt
    have hgeq : ((k : ℚ) - 1) * a + 1 ≤ n := by exact_mod_cast hge
    have hleq : (n : ℚ) + 1 ≤ k * a := by exact_mod_cast hle
    have hc := hr.close ((n : ℚ) / a) (by rw [div_le_div_iff₀ (by norm_num) haq]; nlinarith)
      (by rw [div_le_iff₀ haq]; nlinarith)
    rw [abs_le] at hc
    have e1 : (n : ℚ) / a / 9007199254740992 < 1 / a := by
      rw [div_div, div_lt_div_iff₀ (by positivity) haq]; nlinarith
    have e2 : (k : ℚ) - 1 + 1 / a ≤ (n : ℚ) / a := by
      rw [le_div_iff₀ haq, add_mul, div_mul_cancel₀ _ haq.ne']; linarith
    have e3 : (n : ℚ) / a ≤ k - 1 / a := by
      rw [div_le_iff₀ haq, sub_mul, div_mul_cancel₀ _ haq.ne']; linarith
    rw [Int.ceil_eq_iff]
    constructor <;> linarith [hc.1, hc.2]
  · have e : (n : ℚ) / a = (k : ℤ) := by
      rw [heq]; push_cast; field_simp
    rw [e, hr.whole k hk1 (by omega), Int.ceil_intCast]

theorem int_ok {z : ℤ} (h1 : -2147483648 ≤ z) (h2 : z < 2147483648) : int z = .ok z := if_pos ⟨h1, h2⟩

theorem ok_bind {α β : Type} (a : α) (f : α → Except String β) : ((Except.ok a : Except String α) >>= f) = f a := rfl

theorem int_nat {z : ℤ} {n : ℕ} (h1 : 0 ≤ z) (h2 : z ≤ n) (hn : n < 2147483648) : int z = .ok z :=
  int_ok (by omega) (by omega)

theorem sub2ind_ok {d0 d1 d2 i j k : ℕ} (hi : i < d0) (hj : j < d1) (hk : k < d2) (hN : d0 * d1 * d2 < 2147483648) :
    sub2ind ((i : ℤ) + 1) ((j : ℤ) + 1) ((k : ℤ) + 1) d0 d1 = .ok ((Limgrad.lin d0 d1 i j k : ℤ) + 1) := by
  have hl := Limgrad.lin_lt hi hj hk
  have h2 : 1 ≤ d2 := by omega
  have h01 : d0 * d1 ≤ d0 * d1 * d2 := Nat.le_mul_of_pos_right _ h2
  have hj0 : j ≤ d0 * d1 := by clear hN; nlinarith
  have hjd : j * d0 + (i + 1) ≤ d0 * d1 := by clear hN; nlinarith
  have hk0 : k ≤ d0 * d1 * d2 := by clear hN; nlinarith [Nat.mul_pos (show 0 < d0 by omega) (show 0 < d1 by omega)]
  have hkd : k * (d0 * d1) ≤ d0 * d1 * d2 := by clear hN; nlinarith
  have e1 : (j : ℤ) + 1 - 1 = (j : ℕ) := by ring
  have e2 : ((j : ℕ) : ℤ) * d0 = ((j * d0 : ℕ) : ℤ) := by push_cast; ring
  have e3 : ((j * d0 : ℕ) : ℤ) + ((i : ℤ) + 1) = ((j * d0 + (i + 1) : ℕ) : ℤ) := by push_cast; ring
  have e4 : (k : ℤ) + 1 - 1 = (k : ℕ) := by ring
  have e5 : (d0 : ℤ) * d1 = ((d0 * d1 : ℕ) : ℤ) := by push_cast; ring
  have e6 : ((k : ℕ) : ℤ) * ((d0 * d1 : ℕ) : ℤ) = ((k * (d0 * d1) : ℕ) : ℤ) := by push_cast; ring
  have e7 : ((j * d0 + (i + 1) : ℕ) : ℤ) + ((k * (d0 * d1) : ℕ) : ℤ) = ((Limgrad.lin d0 d1 i j k + 1 : ℕ) : ℤ) := by
    unfold Limgrad.lin; push_cast; ring
  have ok : ∀ n : ℕ, n ≤ d0 * d1 * d2 → int ((n : ℕ) : ℤ) = .ok ((n : ℕ) : ℤ) :=
    fun n h => int_ok (by omega) (by omega)
  unfold sub2ind
  rw [e1, ok j (by omega), ok_bind]
  rw [e2, ok _ (by omega), ok_bind]
  rw [e3, ok _ (by omega), ok_bind]
  rw [e4, ok k hk0, ok_bind]
  rw [e5, ok _ h01, ok_bind]
  rw [e6, ok _ hkd, ok_bind]
  rw [e7, ok _ (by omega)]
  push_cast; rfl

theorem ind2sub_ok {rnd : ℚ → ℚ} (hr : Rounds rnd) {d0 d1 d2 i j k : ℕ} (hi : i < d0) (hj : j < d1) (hk : k < d2)
    (hN : d0 * d1 * d2 < 2147483648) :
    ind2sub rnd ((Limgrad.lin d0 d1 i j k : ℕ) + 1) d0 d1 = .ok ((i : ℤ) + 1, (j : ℤ) + 1, (k : ℤ) + 1) := by
  have hl := Limgrad.lin_lt hi hj hk
  have h2 : 1 ≤ d2 := by omega
  have hp01 : 0 < d0 * d1 := Nat.mul_pos (by omega) (by omega)
  have h01 : d0 * d1 ≤ d0 * d1 * d2 := Nat.le_mul_of_pos_right _ h2
  have hjd : j * d0 + (i + 1) ≤ d0 * d1 := by clear hN; nlinarith
  have hj0 : j + 1 ≤ d0 * d1 := by clear hN; nlinarith
  have hk0 : k + 1 ≤ d0 * d1 * d2 := by clear hN; nlinarith
  have hkd0 : k * d0 ≤ d0 * d1 * d2 := by
    have : k * d0 ≤ d2 * (d0 * d1) := Nat.mul_le_mul (by omega) (Nat.le_mul_of_pos_right _ (by omega))
    linarith
  have hkd : k * d0 * d1 ≤ d0 * d1 * d2 := by clear hN; nlinarith
  have ok : ∀ n : ℕ, n ≤ d0 * d1 * d2 → int ((n : ℕ) : ℤ) = .ok ((n : ℕ) : ℤ) :=
    fun n h => int_ok (by omega) (by omega)
  have e5 : (d0 : ℤ) * d1 = ((d0 * d1 : ℕ) : ℤ) := by push_cast; ring
  have hceil : ⌈rnd (((((Limgrad.lin d0 d1 i j k : ℕ) : ℤ) + 1 : ℤ) : ℚ) / (((d0 * d1 : ℕ) : ℤ) : ℚ))⌉ = ((k + 1 : ℕ) : ℤ) := by
    rw [C105_quotient hr (by omega) (by omega) (by omega) (by omega)]
    have := congrArg (fun s : ℤ × ℤ × ℤ => s.2.2) (Limgrad.ind2sub_eq (k := k) hi hj)
    simp only [Limgrad.ind2sub] at this
    rw [e5] at this
    rw [this]; push_cast; rfl
  unfold ind2sub
  rw [e5, ok _ h01, ok_bind]
  simp only [if_neg (show ¬ ((d0 * d1 : ℕ) : ℤ) = 0 by omega)]
  rw [hceil, ok _ hk0, ok_bind]
  rw [show ((k + 1 : ℕ) : ℤ) - 1 = (k : ℕ) by push_cast; ring, ok _ (by omega), ok_bind]
  rw [show ((k : ℕ) : ℤ) * d0 = ((k * d0 : ℕ) : ℤ) by push_cast; ring, ok _ hkd0, ok_bind]
  rw [show ((k * d0 : ℕ) : ℤ) * d1 = ((k * d0 * d1 : ℕ) : ℤ) by push_cast; ring, ok _ hkd, ok_bind]
  rw [show ((Limgrad.lin d0 d1 i j k : ℕ) : ℤ) + 1 - ((k * d0 * d1 : ℕ) : ℤ) = ((j * d0 + (i + 1) : ℕ) : ℤ) by
    unfold Limgrad.lin; push_cast; ring, ok _ (by omega), ok_bind]
  rw [show ((j * d0 + (i + 1) : ℕ) : ℤ) - 1 = ((j * d0 + i : ℕ) : ℤ) by push_cast; ring, ok _ (by omega), ok_bind]
  have hdiv : ((j * d0 + i : ℕ) : ℤ).tdiv (d0 : ℤ) = ((j : ℕ) : ℤ) := by
    have h2 : ((j * d0 + i : ℕ) : ℤ).tdiv (d0 : ℤ) = (((j * d0 + i) / d0 : ℕ) : ℤ) := rfl
    rw [h2, add_comm (j * d0), Nat.add_mul_div_right _ _ (by omega), Nat.div_eq_of_lt hi]; simp
  rw [hdiv, ok j (by omega), ok_bind]
  rw [show (1 : ℤ) + (j : ℕ) = ((j + 1 : ℕ) : ℤ) by push_cast; ring, ok _ (by omega), ok_bind]
  rw [show ((j + 1 : ℕ) : ℤ) - 1 = ((j : ℕ) : ℤ) by push_cast; ring, ok j (by omega), ok_bind]
  rw [show ((j : ℕ) : ℤ) * d0 = ((j * d0 : ℕ) : ℤ) by push_cast; ring, ok _ (by omega), ok_bind]
  rw [show ((j * d0 + (i + 1) : ℕ) : ℤ) - ((j * d0 : ℕ) : ℤ) = ((i + 1 : ℕ) : ℤ) by push_cast; ring, ok (i + 1) (by omega)]
  push_cast; rfl

theorem stencil_ok {rnd : ℚ → ℚ} (hr : Rounds rnd) {d0 d1 d2 a : ℕ} (ha : a < d0 * d1 * d2)
    (hN : d0 * d1 * d2 ≤ 2147483646) : stencil rnd d0 d1 d2 a = .ok (Limgrad.stencil d0 d1 d2 a) := by
  rw [stencil_nat ha]
  obtain ⟨i, j, k, hi, hj, hk, rfl⟩ := Limgrad.exists_lin ha
  rw [Limgrad.nbrs_eq hi hj hk]
  have hp01 : 0 < d0 * d1 := Nat.mul_pos (by omega) (by omega)
  have h01 : d0 * d1 ≤ d0 * d1 * d2 := Nat.le_mul_of_pos_right _ (by omega)
  have hi0 : i + 1 ≤ d0 * d1 * d2 := by clear hN; nlinarith
  have hj0 : j + 1 ≤ d0 * d1 * d2 := by clear hN; nlinarith
  have hk0 : k + 1 ≤ d0 * d1 * d2 := by clear hN; nlinarith
  have okz : ∀ z : ℤ, 0 ≤ z → z ≤ 2147483647 → int z = .ok z := fun z h1 h2 => int_ok (by omega) (by omega)
  have up : ∀ (x d : ℕ), x < d → min ((x : ℤ) + 1 + 1) d = ((min (x + 1) (d - 1) : ℕ) : ℤ) + 1 := by
    intro x d h; omega
  have dn : ∀ (x : ℕ), max ((x : ℤ) + 1 - 1) 1 = ((x - 1 : ℕ) : ℤ) + 1 := by
    intro x; omega
  have hN' : d0 * d1 * d2 < 2147483648 := by omega
  have ldec : ∀ {x y z : ℕ}, x < d0 → y < d1 → z < d2 → int ((Limgrad.lin d0 d1 x y z : ℤ) + 1 - 1) =
      .ok ((Limgrad.lin d0 d1 x y z : ℕ) : ℤ) := by
    intro x y z hx hy hz
    have := Limgrad.lin_lt hx hy hz
    rw [add_sub_cancel_right, okz _ (by omega) (by omega)]
  unfold stencil
  rw [okz _ (by omega) (by omega), ok_bind]
  rw [ind2sub_ok hr hi hj hk hN', ok_bind]
  simp only []
  rw [okz ((j : ℤ) + 1 + 1) (by omega) (by omega), ok_bind]
  rw [up j d1 hj, sub2ind_ok hi (show min (j + 1) (d1 - 1) < d1 by omega) hk hN', ok_bind]
  rw [okz ((j : ℤ) + 1 - 1) (by omega) (by omega), ok_bind]
  rw [dn j, sub2ind_ok hi (show j - 1 < d1 by omega) hk hN', ok_bind]
  rw [okz ((i : ℤ) + 1 + 1) (by omega) (by omega), ok_bind]
  rw [up i d0 hi, sub2ind_ok (show min (i + 1) (d0 - 1) < d0 by omega) hj hk hN', ok_bind]
  rw [okz ((i : ℤ) + 1 - 1) (by omega) (by omega), ok_bind]
  rw [dn i, sub2ind_ok (show i - 1 < d0 by omega) hj hk hN', ok_bind]
  rw [okz ((k : ℤ) + 1 + 1) (by omega) (by omega), ok_bind]
  rw [up k d2 hk, sub2ind_ok hi hj (show min (k + 1) (d2 - 1) < d2 by omega) hN', ok_bind]
  rw [okz ((k : ℤ) + 1 - 1) (by omega) (by omega), ok_bind]
  rw [dn k, sub2ind_ok hi hj (show k - 1 < d2 by omega) hN', ok_bind]
  rw [ldec hi (show min (j + 1) (d1 - 1) < d1 by omega) hk, ok_bind]
  rw [ldec hi (show j - 1 < d1 by omega) hk, ok_bind]
  rw [ldec (show min (i + 1) (d0 - 1) < d0 by omega) hj hk, ok_bind]
  rw [ldec (show i - 1 < d0 by omega) hj hk, ok_bind]
  rw [ldec hi hj (show min (k + 1) (d2 - 1) < d2 by omega), ok_bind]
  rw [ldec hi hj (show k - 1 < d2 by omega)]
  rfl

theorem narrow_small {n : ℕ} (h : n < 2147483648) : narrow n = n := by
  unfold narrow
  rw [Nat.mod_eq_of_lt (by omega), if_pos h]

theorem mem_findB {A : List ℤ} {v : ℤ} {a : ℕ} (h : a ∈ findB A v) : a < A.length := by
  unfold findB at h
  exact List.mem_range.1 (List.mem_filter.1 h).1

theorem visit_ok {rnd : ℚ → ℚ} (hr : Rounds rnd) {step ftol : K} {d0 d1 d2 a : ℕ} {iter : ℤ} (ha : a < d0 * d1 * d2)
    (hN : d0 * d1 * d2 ≤ 2147483646) (s : List K × List ℤ) :
    visit rnd step ftol d0 d1 d2 iter s (narrow a) = visitB step ftol d0 d1 d2 iter s a := by
  rw [narrow_small (by omega)]
  unfold visit visitB
  rw [stencil_ok hr ha hN, ok_bind]

theorem foldlM_congr {β γ S : Type} {f : S → β → Except String S} {g : S → γ → Except String S} {h : γ → β} :
    ∀ (l : List γ) (s : S), (∀ c ∈ l, ∀ s, f s (h c) = g s c) → (l.map h).foldlM f s = l.foldlM g s
  | [], _, _ => rfl
  | c :: l, s, hfg => by
    simp only [List.map_cons, List.foldlM_cons, bind, Except.bind, hfg c (by simp)]
    cases g s c with
    | error e => rfl
    | ok s' => exact foldlM_congr l s' fun c hc => hfg c (by simp [hc])

theorem loop_ok {rnd : ℚ → ℚ} (hr : Rounds rnd) {step ftol : K} {d0 d1 d2 : ℕ} (hN : d0 * d1 * d2 ≤ 2147483646) :
    ∀ (n : ℕ) (iter : ℤ) (s : List K × List ℤ) (S : Limgrad.St K), Holds (d0 * d1 * d2) s S → 0 ≤ iter →
      iter + n < 2147483648 → loop rnd step ftol d0 d1 d2 n iter s = loopB step ftol d0 d1 d2 n iter s
  | 0, _, _, _, _, _, _ => rfl
  | n + 1, iter, s, S, h, h0, h1 => by
    have hlen : s.2.length = d0 * d1 * d2 := by rw [h.mark]; simp
    unfold loop loopB
    rw [int_ok (by omega) (by push_cast at h1; omega), ok_bind]
    simp only [List.isEmpty_map]
    by_cases he : (findB s.2 (iter - 1)).isEmpty = true
    · rw [if_pos he, if_pos he]
    · rw [if_neg he, if_neg he]
      have hin : ∀ a ∈ findB s.2 (iter - 1), a < d0 * d1 * d2 := fun a ha => hlen ▸ mem_findB ha
      rw [foldlM_congr (h := narrow) (g := visitB step ftol d0 d1 d2 iter) _ _
        (fun c hc s => visit_ok hr (hin c hc) hN s)]
      obtain ⟨s', e, h'⟩ : ∃ s', (findB s.2 (iter - 1)).foldlM (visitB step ftol d0 d1 d2 iter) s = .ok s' ∧
          ∃ S', Holds (d0 * d1 * d2) s' S' := by
        generalize findB s.2 (iter - 1) = l at hin
        clear he hlen
        induction l generalizing s S with
        | nil => exact ⟨s, rfl, S, h⟩
        | cons a l ih =>
          obtain ⟨s', e, h'⟩ := visitB_ok (step := step) (ftol := ftol) (iter := iter) h (hin a (by simp))
          obtain ⟨s'', e', h''⟩ := ih s' _ h' fun b hb => hin b (by simp [hb])
          refine ⟨s'', ?_, h''⟩
          rw [List.foldlM_cons, e, ok_bind, e']
      obtain ⟨S', h'⟩ := h'
      rw [e, ok_bind, ok_bind, int_ok (by omega) (by push_cast at h1; omega), ok_bind]
      exact loop_ok hr hN n (iter + 1) s' S' h' (by omega) (by push_cast at h1; omega)

theorem prod_int {d0 d1 d2 : ℕ} (hN : d0 * d1 * d2 < 2147483648) (hd : 0 < d2) :
    int ((d0 : ℤ) * d1) = .ok ((d0 * d1 : ℕ) : ℤ) ∧ int (((d0 * d1 : ℕ) : ℤ) * d2) = .ok ((d0 * d1 * d2 : ℕ) : ℤ) := by
  have h01 : d0 * d1 ≤ d0 * d1 * d2 := Nat.le_mul_of_pos_right _ hd
  have e1 : (d0 : ℤ) * d1 = ((d0 * d1 : ℕ) : ℤ) := by push_cast; ring
  have e2 : ((d0 * d1 : ℕ) : ℤ) * d2 = ((d0 * d1 * d2 : ℕ) : ℤ) := by push_cast; ring
  rw [e1, e2]
  exact ⟨int_ok (by omega) (by omega), int_ok (by omega) (by omega)⟩

/-- **C105.** In 32-bit arithmetic, with the quotient in `ind2sub` rounded as a `double`, `limgrad` on a grid with at most
`2^31 - 2` nodes computes exactly what it computes with unbounded integers and exact quotients: no operation overflows. -/
theorem C105_no_overflow {rnd : ℚ → ℚ} (hr : Rounds rnd) (seps elen dfdx : K) (d0 d1 d2 imax : ℕ) (ffun : List K)
    (hlen : ffun.length = d0 * d1 * d2) (hpos : 0 < ffun.length) (hN : d0 * d1 * d2 ≤ 2147483646)
    (himax : imax < 2147483648) :
    limgrad rnd seps [(d0 : ℤ), d1, d2] elen dfdx imax ffun =
      .ok ((List.range (d0 * d1 * d2)).map
        (Limgrad.cLimgrad d0 d1 d2 seps elen dfdx imax fun i => ffun.getD i 0).1) := by
  rw [← C90_limgrad seps elen dfdx d0 d1 d2 imax ffun hlen hpos]
  have hd2 : 0 < d2 := by
    rcases Nat.eq_zero_or_pos d2 with h | h
    · rw [h, Nat.mul_zero] at hlen; omega
    · exact h
  obtain ⟨p1, p2⟩ := prod_int (d0 := d0) (d1 := d1) (show d0 * d1 * d2 < 2147483648 by omega) hd2
  obtain ⟨e0, e1, e2, e3⟩ := dims_ok (d0 : ℤ) d1 d2
  unfold limgrad NativeHJ.limgrad
  simp only [narrow_small (show ffun.length < 2147483648 by omega), Int.toNat_natCast]
  rw [if_neg (by omega)]
  rw [memcpy_all _ rfl, ok_bind, ok_bind, e0, ok_bind, ok_bind, e1, ok_bind, ok_bind, e2, ok_bind, ok_bind, e3, ok_bind, ok_bind,
    p1, ok_bind, p2, ok_bind]
  have ec : (d0 : ℤ) * d1 * d2 = ((d0 * d1 * d2 : ℕ) : ℤ) := by push_cast; ring
  simp only [ec, Int.toNat_natCast]
  rw [if_neg (by omega), if_neg (by omega), minB_ok ffun hpos, ok_bind, ok_bind]
  have h0 : Holds (d0 * d1 * d2) (ffun, List.replicate (d0 * d1 * d2) (-1))
      { val := fun i => ffun.getD i 0, mark := fun _ => -1 } := by
    constructor
    · simp only []
      rw [← hlen, map_zip_range _ ffun (by intro i hi; rw [List.getD_eq_getElem _ _ hi])]
    · simp
  rw [loop_ok hr hN imax 0 _ _ h0 (by omega) (by omega)]

theorem err_bind {α β : Type} (e : String) (f : α → Except String β) : ((Except.error e : Except String α) >>= f) = .error e :=
  rfl

theorem int_err {z : ℤ} (h : 2147483648 ≤ z) : int z = .error ovf := if_neg (by omega)

theorem prime31 : Nat.Prime 2147483647 := by
  have h := lucas_lehmer_sufficiency 31 (by norm_num) (by norm_num)
  rwa [show mersenne 31 = 2147483647 by norm_num [mersenne]] at h

/-- A grid with `2^31 - 1` nodes is a row of nodes, because that number is prime. -/
theorem row_of_prime {d0 d1 d2 : ℕ} (h : d0 * d1 * d2 = 2147483647) :
    (d0 = 2147483647 ∧ d1 = 1 ∧ d2 = 1) ∨ (d0 = 1 ∧ d1 = 2147483647 ∧ d2 = 1) ∨ (d0 = 1 ∧ d1 = 1 ∧ d2 = 2147483647) := by
  have hp := prime31
  rw [← h] at hp
  rcases Nat.prime_mul_iff.1 hp with ⟨h1, h2⟩ | ⟨h1, h2⟩
  · subst h2
    rcases Nat.prime_mul_iff.1 h1 with ⟨-, h3⟩ | ⟨-, h3⟩
    · subst h3; left; omega
    · subst h3; right; left; omega
  · obtain ⟨rfl, rfl⟩ := mul_eq_one.1 h2
    right; right; omega

theorem stencil_last {rnd : ℚ → ℚ} (hr : Rounds rnd) {d0 d1 d2 : ℕ} (h : d0 * d1 * d2 = 2147483647) :
    ∃ e, stencil rnd d0 d1 d2 ((2147483646 : ℕ) : ℤ) = .error e := by
  have hN : d0 * d1 * d2 < 2147483648 := by omega
  have okz : ∀ z : ℤ, 0 ≤ z → z ≤ 2147483647 → int z = .ok z := fun z h1 h2 => int_ok (by omega) (by omega)
  have h0 : 0 < d0 := Nat.pos_of_ne_zero (by rintro rfl; simp at h)
  have h1 : 0 < d1 := Nat.pos_of_ne_zero (by rintro rfl; simp at h)
  have h2 : 0 < d2 := Nat.pos_of_ne_zero (by rintro rfl; simp at h)
  have hlast : Limgrad.lin d0 d1 (d0 - 1) (d1 - 1) (d2 - 1) = 2147483646 := by
    have : Limgrad.lin d0 d1 (d0 - 1) (d1 - 1) (d2 - 1) + 1 = d0 * d1 * d2 := by
      obtain ⟨a, rfl⟩ := Nat.exists_eq_succ_of_ne_zero h0.ne'
      obtain ⟨b, rfl⟩ := Nat.exists_eq_succ_of_ne_zero h1.ne'
      obtain ⟨c, rfl⟩ := Nat.exists_eq_succ_of_ne_zero h2.ne'
      unfold Limgrad.lin
      simp only [Nat.succ_eq_add_one, Nat.add_sub_cancel]
      ring
    omega
  rw [← hlast]
  have hi : d0 - 1 < d0 := by omega
  have hj : d1 - 1 < d1 := by omega
  have hk : d2 - 1 < d2 := by omega
  unfold stencil
  rw [okz _ (by omega) (by omega), ok_bind, ind2sub_ok hr hi hj hk hN, ok_bind]
  simp only []
  by_cases hj1 : d1 = 2147483647
  · rw [int_err (by omega), err_bind]; exact ⟨_, rfl⟩
  have up : ∀ (x d : ℕ), x < d → min ((x : ℤ) + 1 + 1) d = ((min (x + 1) (d - 1) : ℕ) : ℤ) + 1 := by
    intro x d h; omega
  have dn : ∀ (x : ℕ), max ((x : ℤ) + 1 - 1) 1 = ((x - 1 : ℕ) : ℤ) + 1 := by
    intro x; omega
  have hr3 := row_of_prime h
  rw [okz _ (by omega) (by omega), ok_bind, up _ _ hj, sub2ind_ok hi (by omega) hk hN, ok_bind,
    okz _ (by omega) (by omega), ok_bind, dn, sub2ind_ok hi (by omega) hk hN, ok_bind]
  by_cases hi1 : d0 = 2147483647
  · rw [int_err (by omega), err_bind]; exact ⟨_, rfl⟩
  rw [okz _ (by omega) (by omega), ok_bind, up _ _ hi, sub2ind_ok (by omega) hj hk hN, ok_bind,
    okz _ (by omega) (by omega), ok_bind, dn, sub2ind_ok (by omega) hj hk hN, ok_bind]
  rw [int_err (by omega), err_bind]; exact ⟨_, rfl⟩

theorem narrow_le (n : ℕ) : (narrow n).toNat ≤ n := by
  unfold narrow
  have := Nat.mod_le n 4294967296
  split <;> omega

/-- **C105 (sharp).** One node more and the call does not return: whatever the field, the `int` arithmetic overflows or a
buffer gets a negative size, if any sweep is made. -/
theorem C105_overflow {rnd : ℚ → ℚ} (hr : Rounds rnd) (seps elen dfdx : K) (d0 d1 d2 imax : ℕ) (ffun : List K)
    (hN : 2147483647 ≤ d0 * d1 * d2) (himax : 0 < imax) :
    ∃ e, limgrad rnd seps [(d0 : ℤ), d1, d2] elen dfdx imax ffun = .error e := by
  obtain ⟨e0, e1, e2, e3⟩ := dims_ok (d0 : ℤ) d1 d2
  have hm : memcpy (narrow ffun.length).toNat ffun = .ok (ffun.take (narrow ffun.length).toNat) := if_pos (narrow_le _)
  unfold limgrad
  simp only []
  by_cases hneg : narrow ffun.length < 0
  · rw [if_pos hneg]; exact ⟨_, rfl⟩
  rw [if_neg hneg, hm, ok_bind, e0, ok_bind, e1, ok_bind, e2, ok_bind, e3, ok_bind]
  have ec1 : (d0 : ℤ) * d1 = ((d0 * d1 : ℕ) : ℤ) := by push_cast; ring
  have ec2 : ((d0 * d1 : ℕ) : ℤ) * d2 = ((d0 * d1 * d2 : ℕ) : ℤ) := by push_cast; ring
  by_cases hp : 2147483648 ≤ d0 * d1
  · rw [ec1, int_err (by omega), err_bind]; exact ⟨_, rfl⟩
  rw [ec1, int_ok (by omega) (by omega), ok_bind, ec2]
  by_cases hp2 : 2147483648 ≤ d0 * d1 * d2
  · rw [int_err (by omega), err_bind]; exact ⟨_, rfl⟩
  have hEq : d0 * d1 * d2 = 2147483647 := by omega
  rw [int_ok (by omega) (by omega), ok_bind, if_neg (by omega), Int.toNat_natCast]
  cases minB (ffun.take (narrow ffun.length).toNat) with
  | error e => exact ⟨e, rfl⟩
  | ok m =>
    rw [ok_bind]
    obtain ⟨n, rfl⟩ : ∃ n, imax = n + 1 := ⟨imax - 1, by omega⟩
    have hf : findB (List.replicate (d0 * d1 * d2) (-1)) (0 - 1) = List.range (d0 * d1 * d2) := by
      unfold findB
      rw [List.length_replicate, List.filter_eq_self]
      intro i hi
      have := List.mem_range.1 hi
      simp [this]
    unfold loop
    rw [int_ok (by omega) (by omega), ok_bind]
    simp only [hf]
    rw [if_neg (by
      rw [List.isEmpty_iff]
      intro h
      have := congrArg List.length h
      rw [List.length_map, List.length_range] at this
      simp only [List.length_nil] at this
      omega)]
    obtain ⟨e, he⟩ := fold_error_inv (P := fun _ : List K × List ℤ => True)
      (body := visit rnd (elen * dfdx) (m * seps) d0 d1 d2 0) (b := ((2147483646 : ℕ) : ℤ)) (fun _ _ _ _ _ => trivial)
      (fun s _ => by
        obtain ⟨e, he⟩ := stencil_last hr hEq
        exact ⟨e, by unfold visit; rw [he, err_bind]⟩)
      (l := (List.range (d0 * d1 * d2)).map narrow)
      (List.mem_map.2 ⟨2147483646, List.mem_range.2 (by omega), narrow_small (by omega)⟩)
      (ffun.take (narrow ffun.length).toNat, List.replicate (d0 * d1 * d2) (-1)) trivial
    rw [he]
    exact ⟨e, rfl⟩

/-- Three nodes in a row, in machine arithmetic with binary64 rounding. -/
example : limgrad Fl.binary64 (0 : ℚ) [3, 1, 1] 1 1 10 [1, 5, 9] = .ok [1, 2, 3] :=
  (C105_no_overflow binary64_rounds 0 1 1 3 1 1 10 [1, 5, 9] rfl (by simp) (by norm_num) (by norm_num)).trans (by decide +kernel)

/-- A cube of 1300 nodes a side is too large. -/
example (ffun : List ℚ) : ∃ e, limgrad Fl.binary64 0 [1300, 1300, 1300] 1 1 10000 ffun = .error e :=
  C105_overflow binary64_rounds 0 1 1 1300 1300 1300 10000 ffun (by norm_num) (by norm_num)

end SM.HJ32
