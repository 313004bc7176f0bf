import Verif.Model.VolFl
import Verif.Lemmas.Rounding
import Verif.Lemmas.Binary64
import Verif.Props.FixMesh
import Mathlib.Algebra.BigOperators.Fin
import Mathlib.Tactic.NormNum
import Mathlib.Tactic.LinearCombination

/-!
# C108: orientation of cells in floating-point arithmetic
-/

namespace SM.VolFl

open SM.Round SM.FixMesh

variable {K : Type} [Field K] [LinearOrder K]

/-! ## Specification -/

/-- The coordinates of the points differ by at most `D`. -/
def Spread {d : ℕ} (D : K) (vs : List (Fin d → K)) : Prop := ∀ x ∈ vs, ∀ y ∈ vs, ∀ i, |x i - y i| ≤ D

variable [IsStrictOrderedRing K]

/-- **C108a.** Error of the signed area computed by `simp_vol`. -/
theorem C108_area {rnd : K → K} {u : K} (hu : 0 ≤ u) (ha : Accurate rnd u) {a b c : Fin 2 → K} {D : K} (hD : Spread D [a, b, c]) :
    |vol2 rnd a b c - ((b 0 - a 0) * (c 1 - a 1) - (b 1 - a 1) * (c 0 - a 0)) / 2| ≤ ((1 + u) ^ 5 - 1) * D ^ 2 := by
  have h1 : ∀ i, Near u 1 D (rnd (b i - a i)) (b i - a i) := fun i =>
    (Near.exact (hD b (by simp) a (by simp) i)).rnd hu ha
  have h2 : ∀ i, Near u 1 D (rnd (c i - a i)) (c i - a i) := fun i =>
    (Near.exact (hD c (by simp) a (by simp) i)).rnd hu ha
  have h3 := ((((((h1 0).mul hu (h2 1)).rnd hu ha).sub (((h1 1).mul hu (h2 0)).rnd hu ha)).rnd hu ha).div (c := 2) (by norm_num)).rnd hu ha
  have := h3.2
  rw [show (D * D + D * D) / 2 = D ^ 2 by ring] at this
  exact this

theorem cross_near {rnd : K → K} {u : K} (hu : 0 ≤ u) (ha : Accurate rnd u) {v w v' w' : Fin 3 → K} {D : K}
    (hv : ∀ i, Near u 1 D (v' i) (v i)) (hw : ∀ i, Near u 1 D (w' i) (w i)) (i : Fin 3) :
    Near u 4 (2 * D ^ 2) (cross rnd v' w' i) (FixMesh.cross v w i) := by
  have key : ∀ j k l m, Near u 4 (2 * D ^ 2) (rnd (rnd (v' j * w' k) - rnd (v' l * w' m))) (v j * w k - v l * w m) := by
    intro j k l m
    have := ((((hv j).mul hu (hw k)).rnd hu ha).sub (((hv l).mul hu (hw m)).rnd hu ha)).rnd hu ha
    rwa [show D * D + D * D = 2 * D ^ 2 by ring] at this
  match i with
  | 0 => exact key 1 2 2 1
  | 1 => exact key 2 0 0 2
  | 2 => exact key 0 1 1 0

theorem sum_order (s : Equiv.Perm (Fin 3)) (x : Fin 3 → K) : x (s 0) + x (s 1) + x (s 2) = x 0 + x 1 + x 2 := by
  have := Equiv.sum_comp s x
  rw [Fin.sum_univ_three, Fin.sum_univ_three] at this
  exact this

/-- **C108b.** Error of the signed volume computed by `simp_vol`, whatever the order in which the three products are added. -/
theorem C108_volume {rnd : K → K} {u : K} (hu : 0 ≤ u) (ha : Accurate rnd u) (s : Equiv.Perm (Fin 3)) {a b c d : Fin 3 → K} {D : K}
    (hD : Spread D [a, b, c, d]) : |vol3 rnd s a b c d - FixMesh.vol3 a b c d| ≤ ((1 + u) ^ 9 - 1) * D ^ 3 := by
  have h1 : ∀ i, Near u 1 D (rnd (b i - a i)) (b i - a i) := fun i =>
    (Near.exact (hD b (by simp) a (by simp) i)).rnd hu ha
  have h2 : ∀ i, Near u 1 D (rnd (c i - a i)) (c i - a i) := fun i =>
    (Near.exact (hD c (by simp) a (by simp) i)).rnd hu ha
  have h3 : ∀ i, Near u 1 D (rnd (d i - a i)) (d i - a i) := fun i =>
    (Near.exact (hD d (by simp) a (by simp) i)).rnd hu ha
  have h4 : ∀ i, Near u 6 (2 * D ^ 3) (rnd (cross rnd (fun i => rnd (b i - a i)) (fun i => rnd (c i - a i)) i * rnd (d i - a i)))
      (FixMesh.cross (fun i => b i - a i) (fun i => c i - a i) i * (d i - a i)) := by
    intro i
    have := ((cross_near hu ha h1 h2 i).mul hu (h3 i)).rnd hu ha
    rwa [show 2 * D ^ 2 * D = 2 * D ^ 3 by ring] at this
  have h5 := (((((h4 (s 0)).add (h4 (s 1))).rnd hu ha).add ((h4 (s 2)).weaken hu (Nat.le_succ 6) le_rfl)).rnd hu ha).div (c := 6) (by norm_num)
  have h6 := (h5.rnd hu ha).2
  rw [sum_order s (fun i => FixMesh.cross (fun i => b i - a i) (fun i => c i - a i) i * (d i - a i)),
    show (2 * D ^ 3 + 2 * D ^ 3 + 2 * D ^ 3) / 6 = D ^ 3 by ring] at h6
  exact h6

theorem take_swap01 {Q : Type} {p : List Q} {r : List ℕ} {vs : List Q} (h : Np.take p r = .ok vs) :
    Np.take p (swap01 r) = .ok (swap01 vs) := by
  have hs := Np.take_spec.1 h
  apply Np.take_spec.2
  have hll := congrArg List.length hs
  simp only [List.length_map] at hll
  match r, vs, hs, hll with
  | [], [], _, _ => simp [swap01]
  | [a], [x], hs, _ => simpa [swap01] using hs
  | a :: b :: r, x :: y :: vs, hs, _ =>
    simp only [List.map_cons, List.cons.injEq, swap01] at hs ⊢
    exact ⟨hs.2.1, hs.1, hs.2.2⟩

/-- Orientation with an inexact volume. -/
theorem orient_close {Q : Type} {vol volx : List Q → K} (hv : ∀ vs, volx (swap01 vs) = -volx vs ∨ volx vs = 0) {p : List Q}
    {r r' : List ℕ} {vs : List Q} (h : Np.take p r = .ok vs) (hr : r' = if vol vs < 0 then swap01 r else r) :
    ∃ vs', Np.take p r' = .ok vs' ∧ (vs' = vs ∨ vs' = swap01 vs) ∧ ∀ E, |vol vs - volx vs| ≤ E → -E ≤ volx vs' := by
  by_cases hn : vol vs < 0
  · rw [if_pos hn] at hr
    refine ⟨swap01 vs, hr ▸ take_swap01 h, Or.inr rfl, fun E hE => ?_⟩
    have := abs_le.1 hE
    rcases hv vs with e | e
    · rw [e]; linarith
    · have e2 := hv (swap01 vs)
      rcases e2 with e2 | e2
      · have : swap01 (swap01 vs) = vs := by
          match vs with
          | [] => rfl
          | [_] => rfl
          | _ :: _ :: _ => rfl
        rw [this] at e2
        have : 0 ≤ E := (abs_nonneg _).trans hE
        linarith
      · have : 0 ≤ E := (abs_nonneg _).trans hE
        linarith
  · rw [if_neg hn] at hr
    refine ⟨vs, hr ▸ h, Or.inl rfl, fun E hE => ?_⟩
    have := abs_le.1 hE
    linarith

theorem mem_swap01 {Q : Type} {x : Q} (vs : List Q) : x ∈ swap01 vs ↔ x ∈ vs := by
  match vs with
  | [] => rfl
  | [_] => rfl
  | a :: b :: r => simp only [swap01, List.mem_cons]; tauto

theorem Spread.swap {d : ℕ} {D : K} {vs vs' : List (Fin d → K)} (h : vs' = vs ∨ vs' = swap01 vs) (hD : Spread D vs') : Spread D vs := by
  rcases h with rfl | rfl
  · exact hD
  · exact fun x hx y hy => hD x ((mem_swap01 vs).2 hx) y ((mem_swap01 vs).2 hy)

variable {κ ρ : Type} [LinearOrder κ] [LinearOrder ρ]

/-- **C108c (2-D).** `fix_mesh` with rounded areas: a returned triangle can be clockwise only if it is degenerate up to rounding: its
area is at least `-((1 + u)^5 - 1) D^2`, `D` the largest difference of coordinates of its vertices. -/
theorem C108_oriented2 {rnd : K → K} {u : K} (hu : 0 ≤ u) (ha : Accurate rnd u) (key : (Fin 2 → K) → κ) {rk : List ℕ → ρ}
    (hrk : Function.Injective rk) {p : List (Fin 2 → K)} (hp : p ≠ []) {t : List (List ℕ)} (ht : InRange p t)
    (h3 : ∀ r ∈ t, r.length = 3) (del : Bool) :
    ∃ p' t' jx', fixMesh key rk (rowVol2 rnd) p t del true = .ok (p', t', jx') ∧
      ∀ r' ∈ t', ∃ i j k a b c, r' = [i, j, k] ∧ p'[i]? = some a ∧ p'[j]? = some b ∧ p'[k]? = some c ∧
        ∀ D, Spread D [a, b, c] →
          -(((1 + u) ^ 5 - 1) * D ^ 2) ≤ ((b 0 - a 0) * (c 1 - a 1) - (b 1 - a 1) * (c 0 - a 0)) / 2 := by
  obtain ⟨p', t', jx', h, hc, -, ho, -⟩ := fixMesh_run key hrk (rowVol2 rnd) hp ht del true
  refine ⟨p', t', jx', h, fun r' hr' => ?_⟩
  obtain ⟨r, vs, hvs, hr⟩ := ho rfl r' hr'
  obtain ⟨vs', hvs', hsw, hE⟩ := orient_close (volx := FixMesh.rowVol2) rowVol2_swap hvs hr
  obtain ⟨r0, hr0, hperm⟩ := hc.fwd r' hr'
  have hl : r'.length = 3 := by
    have := hperm.length_eq; simp only [rowKeys, List.length_map] at this; rw [this, h3 r0 hr0]
  have hs := Np.take_spec.1 hvs'
  have hl2 := Np.take_length hvs'
  rw [hl] at hl2
  have hl3 : vs.length = 3 := by
    rcases hsw with e | e
    · rw [← e, hl2]
    · rw [e] at hl2
      match vs, hl2 with
      | [_, _, _], _ => rfl
  match r', vs', hl, hl2, hs, vs, hl3, hsw, hE with
  | [i, j, k], [a, b, c], _, _, hs, [x, y, z], _, hsw, hE =>
    simp only [List.map_cons, List.map_nil, List.cons.injEq, and_true] at hs
    exact ⟨i, j, k, a, b, c, rfl, hs.1, hs.2.1, hs.2.2, fun D hD => hE _ (C108_area hu ha (hD.swap hsw))⟩

/-- **C108c (3-D).** The same for tetrahedra: the volume of a returned cell is at least `-((1 + u)^9 - 1) D^3`. -/
theorem C108_oriented3 {rnd : K → K} {u : K} (hu : 0 ≤ u) (ha : Accurate rnd u) (s : Equiv.Perm (Fin 3)) (key : (Fin 3 → K) → κ)
    {rk : List ℕ → ρ} (hrk : Function.Injective rk) {p : List (Fin 3 → K)} (hp : p ≠ []) {t : List (List ℕ)} (ht : InRange p t)
    (h4 : ∀ r ∈ t, r.length = 4) (del : Bool) :
    ∃ p' t' jx', fixMesh key rk (rowVol3 rnd s) p t del true = .ok (p', t', jx') ∧
      ∀ r' ∈ t', ∃ i j k l a b c d, r' = [i, j, k, l] ∧ p'[i]? = some a ∧ p'[j]? = some b ∧ p'[k]? = some c ∧ p'[l]? = some d ∧
        ∀ D, Spread D [a, b, c, d] → -(((1 + u) ^ 9 - 1) * D ^ 3) ≤ FixMesh.vol3 a b c d := by
  obtain ⟨p', t', jx', h, hc, -, ho, -⟩ := fixMesh_run key hrk (rowVol3 rnd s) hp ht del true
  refine ⟨p', t', jx', h, fun r' hr' => ?_⟩
  obtain ⟨r, vs, hvs, hr⟩ := ho rfl r' hr'
  obtain ⟨vs', hvs', hsw, hE⟩ := orient_close (volx := FixMesh.rowVol3) rowVol3_swap hvs hr
  obtain ⟨r0, hr0, hperm⟩ := hc.fwd r' hr'
  have hl : r'.length = 4 := by
    have := hperm.length_eq; simp only [rowKeys, List.length_map] at this; rw [this, h4 r0 hr0]
  have hs := Np.take_spec.1 hvs'
  have hl2 := Np.take_length hvs'
  rw [hl] at hl2
  have hl3 : vs.length = 4 := by
    rcases hsw with e | e
    · rw [← e, hl2]
    · rw [e] at hl2
      match vs, hl2 with
      | [_, _, _, _], _ => rfl
  match r', vs', hl, hl2, hs, vs, hl3, hsw, hE with
  | [i, j, k, l], [a, b, c, d], _, _, hs, [x, y, z, w], _, hsw, hE =>
    simp only [List.map_cons, List.map_nil, List.cons.injEq, and_true] at hs
    exact ⟨i, j, k, l, a, b, c, d, rfl, hs.1, hs.2.1, hs.2.2.1, hs.2.2.2, fun D hD => hE _ (C108_volume hu ha s (hD.swap hsw))⟩

/-! ## binary64 -/

/-- **C108d.** Rounding to 53 bits: `-6 * 2^-53 D^2` and `-10 * 2^-53 D^3`. -/
theorem C108_binary64 : Accurate SM.Fl.binary64 (1 / 9007199254740992) ∧
    (1 + 1 / 9007199254740992 : ℚ) ^ 5 - 1 ≤ 6 / 9007199254740992 ∧ (1 + 1 / 9007199254740992 : ℚ) ^ 9 - 1 ≤ 10 / 9007199254740992 := by
  refine ⟨fun x => SM.Fl.binary64_error x, ?_, ?_⟩ <;> norm_num

/-- Three points on a line except for two last bits. -/
def thin : List (Fin 2 → ℚ) := [![4503599627370499 / 2 ^ 53, 4503599627370501 / 2 ^ 53], ![3, 3], ![5, 5]]

/-- **C108e.** The exception is needed: `fix_mesh` in binary64 returns this triangle, which was counter-clockwise, clockwise; -/
theorem C108_flipped : FixMesh.rowVol2 thin > 0 ∧
    (fixMesh lexKey id (rowVol2 SM.Fl.binary64) thin [[0, 1, 2]] true true).toOption.map (fun x => (x.1.map lexKey, x.2.1)) =
      some (thin.map lexKey, [[1, 0, 2]]) := by
  decide +kernel

/-- Another thin triangle. -/
def thin' : List (Fin 2 → ℚ) := [![4503599627370499 / 2 ^ 53, 4503599627370509 / 2 ^ 53], ![3, 3], ![5, 5]]

/-- **C108f.** and for this one `simp_vol` of the returned triangle is still negative: calling `fix_mesh` again flips it again. -/
theorem C108_still_negative :
    (fixMesh lexKey id (rowVol2 SM.Fl.binary64) thin' [[0, 1, 2]] true true).toOption.map (fun x => (x.1.map lexKey, x.2.1)) =
      some (thin'.map lexKey, [[1, 0, 2]]) ∧
    rowVol2 SM.Fl.binary64 (swap01 thin') < 0 := by
  decide +kernel

/-! ## Examples -/

example : Spread 5 thin := by
  intro x hx y hy i
  revert x hx y hy i
  simp only [thin, List.mem_cons, List.not_mem_nil, or_false, forall_eq_or_imp, forall_eq, Fin.forall_fin_two]
  decide +kernel

example : Accurate (id : ℚ → ℚ) 0 := by intro x; simp

example : thin ≠ [] ∧ InRange thin [[0, 1, 2]] ∧ ∀ r ∈ [[0, 1, 2]], r.length = 3 := by
  refine ⟨by simp [thin], ?_, by decide⟩
  unfold InRange
  simp [thin]

end SM.VolFl
