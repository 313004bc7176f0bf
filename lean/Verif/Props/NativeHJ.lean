import Verif.Model.NativeHJ
import Verif.Props.Native
import Verif.Props.Limgrad

/-!
# C90: the limiter on its buffers
-/

set_option linter.unusedSectionVars false

namespace SM.NativeHJ

open SM.Native SM.Limgrad

variable {K : Type} [Field K] [LinearOrder K] [IsStrictOrderedRing K]

/-- The buffers `s` hold the values of the functions `S` at the `N` nodes. -/
structure Holds (N : ℕ) (s : List K × List ℤ) (S : St K) : Prop where
  val : s.1 = (List.range N).map S.val
  mark : s.2 = (List.range N).map S.mark

theorem get_map {α : Type} (N : ℕ) (f : ℕ → α) {i : ℕ} (h : i < N) :
    ((List.range N).map f)[i]? = some (f i) := by simp [h]

theorem set_map {α : Type} (N : ℕ) (f : ℕ → α) (i : ℕ) (v : α) :
    ((List.range N).map f).set i v = (List.range N).map (Function.update f i v) := by
  apply List.ext_getElem
  · simp
  · intro k h1 h2
    have hk : k < N := by simpa using h2
    rw [List.getElem_set]
    by_cases h : i = k
    · subst h; simp
    · rw [if_neg h]
      simp [Function.update_of_ne (Ne.symm h)]

theorem wrZ_map {α : Type} (N : ℕ) (f : ℕ → α) {i : ℕ} (h : i < N) (v : α) :
    wrZ ((List.range N).map f) (i : ℤ) v = .ok ((List.range N).map (Function.update f i v)) := by
  unfold wrZ wr
  rw [if_pos (Int.natCast_nonneg i), if_pos (by simpa using h), Int.toNat_natCast, set_map]

theorem relaxB_ok {step ftol : K} {iter : ℤ} {N : ℕ} {s : List K × List ℤ} {S : St K} (h : Holds N s S)
    {a b : ℕ} (ha : a < N) (hb : b < N) :
    ∃ s', relaxB step ftol iter (a : ℤ) s (b : ℤ) = .ok s' ∧ Holds N s' (relax step ftol iter S a b) := by
  obtain ⟨v, m⟩ := s
  obtain ⟨hv, hm⟩ := h
  simp only [] at hv hm
  subst hv hm
  unfold relaxB relax
  simp only []
  rw [rd_nat _ _ (get_map N _ ha), rd_nat _ _ (get_map N _ hb)]
  simp only [bind, Except.bind]
  split
  · split
    · rw [wrZ_map N _ ha, wrZ_map N _ ha]
      exact ⟨_, rfl, rfl, rfl⟩
    · exact ⟨_, rfl, rfl, rfl⟩
  · split
    · rw [wrZ_map N _ hb, wrZ_map N _ hb]
      exact ⟨_, rfl, rfl, rfl⟩
    · exact ⟨_, rfl, rfl, rfl⟩

/-- The `int` subscripts the code computes are the node numbers: nothing is negative or too large. -/
theorem stencil_nat {d0 d1 d2 a : ℕ} (ha : a < d0 * d1 * d2) :
    stencil d0 d1 d2 a = (nbrs d0 d1 d2 a).map fun (b : ℕ) => (b : ℤ) := by
  obtain ⟨i, j, k, hi, hj, hk, rfl⟩ := exists_lin ha
  rw [nbrs_eq hi hj hk]
  unfold stencil
  simp only [ind2sub_eq hi hj]
  have up : ∀ (x d : ℕ), x < d → min ((x : ℤ) + 1 + 1) d = ((min (x + 1) (d - 1) : ℕ) : ℤ) + 1 := by
    intro x d h; omega
  have dn : ∀ (x : ℕ), max ((x : ℤ) + 1 - 1) 1 = ((x - 1 : ℕ) : ℤ) + 1 := by
    intro x; omega
  rw [up j d1 hj, up i d0 hi, up k d2 hk, dn, dn, dn]
  simp only [sub2ind_eq]
  simp

theorem visitB_ok {step ftol : K} {iter : ℤ} {d0 d1 d2 : ℕ} {s : List K × List ℤ} {S : St K}
    (h : Holds (d0 * d1 * d2) s S) {a : ℕ} (ha : a < d0 * d1 * d2) :
    ∃ s', visitB step ftol d0 d1 d2 iter s a = .ok s' ∧
      Holds (d0 * d1 * d2) s' (visit step ftol (nbrs d0 d1 d2) iter S a) := by
  unfold visitB visit
  rw [stencil_nat ha, List.foldlM_map]
  have hn : ∀ b ∈ nbrs d0 d1 d2 a, b < d0 * d1 * d2 := fun b hb => nbIn_nbrs d0 d1 d2 a ha b hb
  generalize nbrs d0 d1 d2 a = l at hn
  induction l generalizing s S with
  | nil => exact ⟨s, rfl, h⟩
  | cons b l ih =>
    obtain ⟨s', e, h'⟩ := relaxB_ok (step := step) (ftol := ftol) (iter := iter) h ha (hn b (by simp))
    obtain ⟨s'', e', h''⟩ := ih h' fun b hb => hn b (by simp [hb])
    refine ⟨s'', ?_, h''⟩
    rw [List.foldlM_cons]
    simp only [bind, Except.bind, e]
    exact e'

theorem findB_ok {N : ℕ} (m : ℕ → ℤ) (v : ℤ) : findB ((List.range N).map m) v = findIndices N m v := by
  unfold findB findIndices
  rw [List.length_map, List.length_range]
  apply List.filter_congr
  intro i hi
  have := List.mem_range.1 hi
  simp only [List.getElem?_map, List.getElem?_range this, Option.map_some]
  by_cases h : m i = v <;> simp [h]

theorem loopB_ok {step ftol : K} {d0 d1 d2 : ℕ} : ∀ (n : ℕ) (iter : ℤ) (s : List K × List ℤ) (S : St K),
    Holds (d0 * d1 * d2) s S → ∃ s', loopB step ftol d0 d1 d2 n iter s = .ok s' ∧
      Holds (d0 * d1 * d2) s' (loop step ftol (nbrs d0 d1 d2) (d0 * d1 * d2) n iter S).1
  | 0, _, s, _, h => ⟨s, rfl, h⟩
  | n + 1, iter, s, S, h => by
    unfold loopB loop
    simp only []
    rw [h.mark, findB_ok]
    by_cases he : (findIndices (d0 * d1 * d2) S.mark (iter - 1)).isEmpty = true
    · rw [if_pos he, if_pos he]; exact ⟨s, rfl, h⟩
    · rw [if_neg he, if_neg he]
      have hin : ∀ a ∈ findIndices (d0 * d1 * d2) S.mark (iter - 1), a < d0 * d1 * d2 :=
        fun a ha => (mem_findIndices.1 ha).1
      have key : ∀ (l : List ℕ), (∀ a ∈ l, a < d0 * d1 * d2) → ∀ (s : List K × List ℤ) (S : St K),
          Holds (d0 * d1 * d2) s S → ∃ s', l.foldlM (visitB step ftol d0 d1 d2 iter) s = .ok s' ∧
            Holds (d0 * d1 * d2) s' (sweep step ftol (nbrs d0 d1 d2) iter l S) := by
        intro l
        induction l with
        | nil => intro _ s S h; exact ⟨s, rfl, h⟩
        | cons a l ih =>
          intro hl s S h
          obtain ⟨s', e, h'⟩ := visitB_ok (step := step) (ftol := ftol) (iter := iter) h (hl a (by simp))
          obtain ⟨s'', e', h''⟩ := ih (fun b hb => hl b (by simp [hb])) s' _ h'
          refine ⟨s'', ?_, h''⟩
          rw [List.foldlM_cons]
          simp only [bind, Except.bind, e]
          exact e'
      obtain ⟨s', e, h'⟩ := key _ hin s S h
      obtain ⟨s'', e', h''⟩ := loopB_ok n (iter + 1) s' _ h'
      refine ⟨s'', ?_, h''⟩
      simp only [bind, Except.bind, e]
      exact e'

theorem minB_ok (ffun : List K) (h : 0 < ffun.length) :
    minB ffun = .ok (minElement ffun.length fun i => ffun.getD i 0) := by
  match ffun, h with
  | x :: l, _ =>
    unfold minB minElement
    rw [← List.foldl_map (f := fun i => (x :: l).getD i 0) (g := min),
      map_zip_range _ (x :: l) (by intro i hi; rw [List.getD_eq_getElem _ _ hi])]
    simp

theorem dims_ok (d0 d1 d2 : ℤ) : memcpy 3 [d0, d1, d2] = .ok [d0, d1, d2] ∧
    rd [d0, d1, d2] 0 = .ok d0 ∧ rd [d0, d1, d2] 1 = .ok d1 ∧ rd [d0, d1, d2] 2 = .ok d2 :=
  ⟨rfl, rfl, rfl, rfl⟩

/-- **C90.** On a non-empty array whose size is the product of `dims`, `limgrad` never leaves a buffer and
returns the field the limiter of `Model/Limgrad.lean` (C01 to C06) computes, node by node. -/
theorem C90_limgrad (seps elen dfdx : K) (d0 d1 d2 imax : ℕ) (ffun : List K)
    (hN : ffun.length = d0 * d1 * d2) (hpos : 0 < ffun.length) :
    limgrad seps [(d0 : ℤ), d1, d2] elen dfdx imax ffun =
      .ok ((List.range (d0 * d1 * d2)).map
        (cLimgrad d0 d1 d2 seps elen dfdx imax fun i => ffun.getD i 0).1) := by
  unfold limgrad
  obtain ⟨e0, e1, e2, e3⟩ := dims_ok (d0 : ℤ) d1 d2
  rw [memcpy_all _ rfl, e0]
  simp only [bind, Except.bind]
  rw [e1, e2, e3]
  simp only []
  have hn : ¬ ((d0 : ℤ) * d1 * d2 < 0) := by
    have : (0 : ℤ) ≤ (d0 : ℤ) * d1 * d2 := by positivity
    omega
  rw [if_neg hn, minB_ok ffun hpos]
  simp only [pure, Except.pure]
  have hc : ((d0 : ℤ) * d1 * d2).toNat = d0 * d1 * d2 := by
    rw [show (d0 : ℤ) * d1 * d2 = ((d0 * d1 * d2 : ℕ) : ℤ) by push_cast; ring, Int.toNat_natCast]
  rw [hc]
  have h0 : Holds (d0 * d1 * d2) (ffun, List.replicate (d0 * d1 * d2) (-1))
      { val := fun i => ffun.getD i 0, mark := fun _ => -1 } := by
    constructor
    · simp only []
      rw [← hN, map_zip_range _ ffun (by intro i hi; rw [List.getD_eq_getElem _ _ hi])]
    · simp
  obtain ⟨s', e, h'⟩ := loopB_ok (step := elen * dfdx)
    (ftol := minElement ffun.length (fun i => ffun.getD i 0) * seps) imax 0 _ _ h0
  rw [e]
  simp only []
  rw [h'.val]
  unfold cLimgrad cLimgradOn
  rw [hN]

theorem fold_error_inv {β S : Type} {P : S → Prop} {body : S → β → Except String S} {b : β}
    (hp : ∀ s x s', P s → body s x = .ok s' → P s') (h : ∀ s, P s → ∃ e, body s b = .error e) :
    ∀ {l : List β}, b ∈ l → ∀ s, P s → ∃ e, l.foldlM body s = .error e
  | [], hb, _, _ => by simp at hb
  | a :: l, hb, s, hs => by
    rw [List.foldlM_cons]
    simp only [bind, Except.bind]
    cases ha : body s a with
    | error e => exact ⟨e, rfl⟩
    | ok s' =>
      rcases List.mem_cons.1 hb with rfl | hb
      · obtain ⟨e, he⟩ := h s hs; rw [ha] at he; cases he
      · exact fold_error_inv hp h hb s' (hp s a s' hs ha)

theorem wrZ_len {α : Type} {b b' : List α} {i : ℤ} {v : α} (h : wrZ b i v = .ok b') : b'.length = b.length := by
  unfold wrZ wr at h
  split at h
  · split at h
    · cases h; simp
    · cases h
  · cases h

theorem relaxB_len {step ftol : K} {iter nod1 nod2 : ℤ} {s s' : List K × List ℤ}
    (h : relaxB step ftol iter nod1 s nod2 = .ok s') : s'.1.length = s.1.length := by
  unfold relaxB at h
  simp only [bind, Except.bind, pure, Except.pure] at h
  repeat' split at h
  all_goals first
    | (cases h; rfl)
    | (cases h; done)
    | (rename_i hv _ _ _; cases h; exact wrZ_len hv)

theorem fold_keeps {β S : Type} {P : S → Prop} {body : S → β → Except String S}
    (hp : ∀ s x s', P s → body s x = .ok s' → P s') :
    ∀ {l : List β} {s s' : S}, P s → l.foldlM body s = .ok s' → P s'
  | [], s, s', hs, h => by cases h; exact hs
  | a :: l, s, s', hs, h => by
    rw [List.foldlM_cons] at h
    simp only [bind, Except.bind] at h
    cases ha : body s a with
    | error e => rw [ha] at h; cases h
    | ok s1 => rw [ha] at h; exact fold_keeps hp (hp s a s1 hs ha) h

/-- **C90 (unchecked).** `dims` are not compared with the size of the array: if their product is larger,
the first pass already reads behind the end. -/
theorem C90_unchecked (seps elen dfdx : K) (d0 d1 d2 imax : ℕ) (ffun : List K)
    (hN : ffun.length < d0 * d1 * d2) (hi : 0 < imax) :
    ∃ e, limgrad seps [(d0 : ℤ), d1, d2] elen dfdx imax ffun = .error e := by
  unfold limgrad
  obtain ⟨e0, e1, e2, e3⟩ := dims_ok (d0 : ℤ) d1 d2
  rw [memcpy_all _ rfl, e0]
  simp only [bind, Except.bind]
  rw [e1, e2, e3]
  simp only []
  have hn : ¬ ((d0 : ℤ) * d1 * d2 < 0) := by
    have : (0 : ℤ) ≤ (d0 : ℤ) * d1 * d2 := by positivity
    omega
  rw [if_neg hn]
  simp only [pure, Except.pure]
  have hc : ((d0 : ℤ) * d1 * d2).toNat = d0 * d1 * d2 := by
    rw [show (d0 : ℤ) * d1 * d2 = ((d0 * d1 * d2 : ℕ) : ℤ) by push_cast; ring, Int.toNat_natCast]
  rw [hc]
  cases hm : minB ffun with
  | error e => exact ⟨e, rfl⟩
  | ok m =>
    simp only []
    obtain ⟨n, rfl⟩ : ∃ n, imax = n + 1 := ⟨imax - 1, by omega⟩
    have hf : findB (List.replicate (d0 * d1 * d2) (-1)) (0 - 1) = List.range (d0 * d1 * d2) := by
      unfold findB
      rw [List.length_replicate, List.filter_eq_self]
      intro i hi
      have := List.mem_range.1 hi
      simp [this]
    unfold loopB
    simp only [hf]
    rw [if_neg (by
      rw [List.isEmpty_iff]
      intro h
      have := congrArg List.length h
      rw [List.length_range] at this
      simp only [List.length_nil] at this
      omega)]
    obtain ⟨e, he⟩ := fold_error_inv (P := fun s : List K × List ℤ => s.1.length = ffun.length)
      (body := visitB (elen * dfdx) (m * seps) d0 d1 d2 0) (b := ffun.length)
      (fun s x s' hs h => by
        unfold visitB at h
        exact fold_keeps (P := fun s : List K × List ℤ => s.1.length = ffun.length)
          (fun s x s' hs h => (relaxB_len h).trans hs) hs h)
      (fun s hs => by
        unfold visitB Limgrad.stencil
        simp only [List.foldlM_cons, bind, Except.bind]
        refine ⟨oob, ?_⟩
        have : ∀ b, relaxB (elen * dfdx) (m * seps) 0 ((ffun.length : ℕ) : ℤ) s b = .error oob := by
          intro b
          unfold relaxB
          rw [rd_none _ _ (by omega)]
          rfl
        rw [this])
      (List.mem_range.2 hN) (ffun, List.replicate (d0 * d1 * d2) (-1)) rfl
    refine ⟨e, ?_⟩
    simp only [bind, Except.bind, he]

/-- An array with fewer than three entries as `dims` is read behind its end. -/
theorem C90_short_dims (seps elen dfdx : K) (dims : List ℤ) (imax : ℕ) (ffun : List K)
    (h : dims.length < 3) : limgrad seps dims elen dfdx imax ffun = .error oob := by
  unfold limgrad
  rw [memcpy_all _ rfl, memcpy_oob dims h]
  rfl

/-- Three nodes in a row: 1, 5, 9 with step 1 become 1, 2, 3. -/
example : limgrad (0 : ℚ) [3, 1, 1] 1 1 10 [1, 5, 9] = .ok [1, 2, 3] := by decide +kernel

example : limgrad (0 : ℚ) [2, 2, 1] 1 1 10 [1, 5, 9] = .error oob := by decide +kernel

end SM.NativeHJ
