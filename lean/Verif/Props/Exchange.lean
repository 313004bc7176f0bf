import Verif.Model.Exchange
import Verif.Lemmas.Mpi
import Verif.Lemmas.Np
import Mathlib.Tactic.Linarith
import Mathlib.Tactic.NormNum
import Mathlib.Data.Rat.Floor

/-!
# C62, C63: the ghost exchange
-/

namespace SM.Exchange

open Mpi Np

variable {K : Type} [Field K] [LinearOrder K] [FloorSemiring K]

/-! ## Specification -/

/-- The export array of a rank: a header with the two counts, then the points for the rank below, then those for the rank
above (each row starts with the `dim` coordinates), then padding. -/
def Packed (dim : ℕ) (exports below above : List (List K)) : Prop :=
  ∃ h rows1 rows2 rest, exports = ((below.length : K) :: (above.length : K) :: h) :: (rows1 ++ rows2 ++ rest) ∧
    rows1.map (fun row => row.take dim) = below ∧ rows2.map (fun row => row.take dim) = above

/-- What rank `r` should get: what `r + 1` sends below, then what `r - 1` sends above. -/
def incoming (P : ℕ) (below above : ℕ → List (List K)) (r : ℕ) : List (List K) :=
  (if r + 1 < P then below (r + 1) else []) ++ (if 0 < r then above (r - 1) else [])

/-! ## Unpacking -/

theorem exchange_packed [IsStrictOrderedRing K] {rank size dim : ℕ} {exports below above : List (List K)} (h : Packed dim exports below above) :
    exchange rank size dim exports = body rank size below.length above.length below above := by
  obtain ⟨hd, rows1, rows2, rest, rfl, rfl, rfl⟩ := h
  simp only [exchange, item, List.getElem?_cons_zero, List.getElem?_cons_succ, lift, bind, Proc.bind, List.length_map, Nat.floor_natCast, List.drop_succ_cons,
    List.drop_zero]
  congr 2
  · rw [List.append_assoc, List.take_left']; rfl
  · rw [List.append_assoc, List.drop_left' rfl, List.take_left' rfl]

/-! ## C62 -/

section run
variable {R : Type} (P : ℕ) (B A : ℕ → List (List K)) (kk : ℕ → List (List K) → Proc (List (List K)) R)

/-- Rank `r` about to receive from below. -/
def stD (r : ℕ) (x : List (List K)) : Proc (List (List K)) R :=
  if r ≠ 0 then .recv (r - 1) 11 fun y => kk r (x ++ y) else kk r (x ++ [])
/-- about to send above -/
def stC (r : ℕ) (x : List (List K)) : Proc (List (List K)) R :=
  if r ≠ P - 1 then .send (r + 1) 11 (A r) (stD kk r x) else stD kk r x
/-- about to receive from above -/
def stB (r : ℕ) : Proc (List (List K)) R :=
  if r ≠ P - 1 then .recv (r + 1) 11 fun x => stC P A kk r x else stC P A kk r []
/-- about to send below -/
def stA (r : ℕ) : Proc (List (List K)) R :=
  if r ≠ 0 then .send (r - 1) 11 (B r) (stB P A kk r) else stB P A kk r

def up (r : ℕ) : List (List K) := if r + 1 < P then B (r + 1) else []

theorem phase1 (hP : 2 ≤ P) (k : ℕ) (hk : k ≤ P - 1) : PReach P (stA P B A kk)
    (fun r => if r < k then stC P A kk r (up P B r) else if r = k then stB P A kk r else stA P B A kk r) := by
  induction k with
  | zero =>
    apply PReach.refl
    intro r _
    by_cases h : r = 0
    · subst h; simp [stA]
    · simp [h]
  | succ k ih =>
    refine (ih (by omega)).trans ?_
    refine PReach.transfer (a := k + 1) (b := k) (t := 11) (m := B (k + 1)) (ka := stB P A kk (k + 1)) (kb := fun x => stC P A kk k x)
      (by omega) (by omega) (by omega) ?_ ?_ ?_ ?_ ?_
    · rw [if_neg (by omega), if_neg (by omega)]; simp [stA]
    · rw [if_neg (by omega), if_pos rfl, stB, if_pos (by omega)]
    · rw [if_neg (by omega), if_pos rfl]
    · rw [if_pos (by omega), up, if_pos (by omega)]
    · intro r _ h1 h2
      have e1 : r < k + 1 ↔ r < k := by omega
      simp only [e1, if_neg h1, if_neg h2]

theorem phase2 (hP : 2 ≤ P) (d : ℕ) (hd : d ≤ P - 1) : PReach P (fun r => stC P A kk r (up P B r))
    (fun r => if r < P - 1 - d then stC P A kk r (up P B r) else if r = P - 1 - d then stD kk r (up P B r) else kk r (incoming P B A r)) := by
  induction d with
  | zero =>
    apply PReach.refl
    intro r hr
    by_cases h : r = P - 1
    · subst h; simp [stC]
    · rw [if_pos (by omega)]
  | succ d ih =>
    refine (ih (by omega)).trans ?_
    refine PReach.transfer (a := P - 1 - d - 1) (b := P - 1 - d) (t := 11) (m := A (P - 1 - d - 1)) (ka := stD kk (P - 1 - d - 1) (up P B (P - 1 - d - 1)))
      (kb := fun y => kk (P - 1 - d) (up P B (P - 1 - d) ++ y)) (by omega) (by omega) (by omega) ?_ ?_ ?_ ?_ ?_
    · rw [if_pos (by omega), stC, if_pos (by omega), Nat.sub_add_cancel (by omega)]
    · rw [if_neg (by omega), if_pos rfl, stD, if_pos (by omega)]
    · rw [if_neg (by omega), if_pos (by omega)]
    · rw [if_neg (by omega), if_neg (by omega), incoming, up]
      congr 2
      rw [if_pos (by omega)]
    · intro r _ h1 h2
      have e1 : r < P - 1 - (d + 1) ↔ r < P - 1 - d := by omega
      have e2 : r ≠ P - 1 - (d + 1) := by omega
      simp only [e1, if_neg e2, if_neg h2]

theorem exchange_run (hP : 2 ≤ P) : PReach P (stA P B A kk) (fun r => kk r (incoming P B A r)) := by
  refine ((phase1 P B A kk hP (P - 1) (le_refl _)).trans ?_).trans (phase2 P B A kk hP (P - 1) (le_refl _)) |>.trans ?_
  · apply PReach.refl
    intro r hr
    by_cases h : r = P - 1
    · subst h
      rw [if_neg (lt_irrefl _), if_pos rfl, stB, if_neg (by simp), up, if_neg (by omega)]
    · rw [if_pos (by omega)]
  · apply PReach.refl
    intro r hr
    rw [if_neg (by omega)]
    by_cases h : r = 0
    · subst h; simp [stD, incoming, up]
    · rw [if_neg (by omega)]

theorem body_bind (r : ℕ) (hr : r < P) (hB : r ≠ 0 → B r ≠ []) (hA : r + 1 < P → A r ≠ []) (hP : 2 ≤ P) :
    (body r P (B r).length (A r).length (B r) (A r)).bind (kk r) = stA P B A kk r := by
  have hne : ¬ ((B r).length = 0 ∧ (A r).length = 0) := by
    rintro ⟨h1, h2⟩
    rw [List.length_eq_zero_iff] at h1 h2
    by_cases h0 : r = 0
    · exact hA (by omega) h2
    · exact hB h0 h1
  have hlB : r ≠ 0 → (B r).length ≠ 0 := fun h e => hB h (List.length_eq_zero_iff.1 e)
  have hlA : r ≠ P - 1 → (A r).length ≠ 0 := fun h e => hA (by omega) (List.length_eq_zero_iff.1 e)
  rw [body, if_neg hne]
  by_cases h0 : r = 0
  · by_cases h1 : r = P - 1
    · omega
    · have := hlA h1
      simp [h0, stA, stB, stC, stD, bind, Proc.bind, send, recv, pure] at this h1 ⊢
      simp [h1, this, Proc.bind]
  · have hb := hlB h0
    by_cases h1 : r = P - 1
    · simp [h0, h1, stA, stB, stC, stD, bind, Proc.bind, send, recv, pure] at hb ⊢
      simp [hb, Proc.bind]
      rw [if_neg (by omega)]
      simp [show ¬ (P - 1 = 0) by omega, Proc.bind]
    · have ha := hlA h1
      simp [h0, h1, stA, stB, stC, stD, bind, Proc.bind, send, recv, pure, hb, ha]

end run

theorem exchange_completes [IsStrictOrderedRing K] {P dim : ℕ} (hP : 2 ≤ P) {E B A : ℕ → List (List K)} (hE : ∀ r < P, Packed dim (E r) (B r) (A r))
    (hB : ∀ r < P, r ≠ 0 → B r ≠ []) (hA : ∀ r, r + 1 < P → A r ≠ []) {prog : ℕ → Proc (List (List K)) (List (List K))}
    (hprog : ∀ r < P, prog r = exchange r P dim (E r)) : Completes P prog (incoming P B A) := by
  apply completes_of_preach
  refine PReach.trans (g := stA P B A fun _ => .ret) ?_ (exchange_run P B A (fun _ => .ret) hP)
  apply PReach.refl
  intro r hr
  have hret : ∀ p : Proc (List (List K)) (List (List K)), p.bind .ret = p := by
    intro p
    induction p with
    | ret => rfl
    | raised => rfl
    | send d t m k ih => simp [Proc.bind, ih]
    | wait d t i k ih => simp [Proc.bind, ih]
    | recv a t k ih => simp [Proc.bind, ih]
    | coll n m k ih => simp [Proc.bind, ih]
    | inColl j n k ih => simp [Proc.bind, ih]
  rw [hprog r hr, exchange_packed (hE r hr), ← body_bind P B A (fun _ => .ret) r hr (hB r hr) (hA r) hP, hret]

/-- **C62.** If every rank has points for each of its neighbours, `exchange` completes on all ranks under every schedule and
every buffering behaviour, and every rank gets the points sent to it from above followed by those from below. -/
theorem C62_exchange [IsStrictOrderedRing K] {P dim : ℕ} (hP : 2 ≤ P) {E B A : ℕ → List (List K)} (hE : ∀ r < P, Packed dim (E r) (B r) (A r))
    (hB : ∀ r < P, r ≠ 0 → B r ≠ []) (hA : ∀ r, r + 1 < P → A r ≠ []) :
    Completes P (fun r => exchange r P dim (E r)) (incoming P B A) := by
  exact exchange_completes hP hE hB hA fun _ _ => rfl

/-! ### Successive iterations -/

section iter
variable {σ : Type} (P dim : ℕ) (E : ℕ → σ → List (List K)) (upd : ℕ → σ → List (List K) → σ)

/-- `n` meshing iterations of rank `r` as far as communication is concerned, mesh_generator.py:383-460: the exports of every
iteration are computed from the rank's data `x`, and `upd` is what it does with the points it gets. -/
def iterate : ℕ → ℕ → σ → Proc (List (List K)) σ
  | 0, _, x => .ret x
  | n + 1, r, x => (exchange r P dim (E r x)).bind fun y => iterate n r (upd r x y)

/-- The same iterations carried out synchronously by all ranks. -/
def lockstep (B A : ℕ → σ → List (List K)) : ℕ → (ℕ → σ) → ℕ → σ
  | 0, x => x
  | n + 1, x => lockstep B A n fun r => upd r (x r) (incoming P (fun q => B q (x q)) (fun q => A q (x q)) r)

theorem iterate_run [IsStrictOrderedRing K] (hP : 2 ≤ P) {B A : ℕ → σ → List (List K)} (hE : ∀ r < P, ∀ x, Packed dim (E r x) (B r x) (A r x)) (n : ℕ) (x : ℕ → σ)
    (hne : ∀ i < n, ∀ r < P, (r ≠ 0 → B r (lockstep P upd B A i x r) ≠ []) ∧ (r + 1 < P → A r (lockstep P upd B A i x r) ≠ [])) :
    PReach P (fun r => iterate P dim E upd n r (x r)) (fun r => .ret (lockstep P upd B A n x r)) := by
  induction n generalizing x with
  | zero => exact PReach.refl fun r _ => rfl
  | succ n ih =>
    set x' : ℕ → σ := fun r => upd r (x r) (incoming P (fun q => B q (x q)) (fun q => A q (x q)) r) with hx'
    have h0 := hne 0 (by omega)
    simp only [lockstep] at h0
    have hrun := exchange_run P (fun q => B q (x q)) (fun q => A q (x q)) (fun r y => iterate P dim E upd n r (upd r (x r) y)) hP
    refine PReach.trans (PReach.refl ?_) (hrun.trans (PReach.trans (PReach.refl ?_) (ih x' ?_)))
    · intro r hr
      rw [iterate, exchange_packed (hE r hr (x r))]
      exact body_bind P (fun q => B q (x q)) (fun q => A q (x q)) (fun r y => iterate P dim E upd n r (upd r (x r) y)) r hr (h0 r hr).1 (h0 r hr).2 hP
    · intro r hr; rfl
    · intro i hi
      exact hne (i + 1) (by omega)

/-- **C62, repeated.** Any number of successive exchanges completes under every schedule and buffering behaviour, and although
the ranks are not synchronised between iterations every rank ends with the data of the synchronous computation: points of
different iterations are never mixed up. (Whenever every rank has points for each of its neighbours.) -/
theorem C62_iterated [IsStrictOrderedRing K] (hP : 2 ≤ P) {B A : ℕ → σ → List (List K)} (hE : ∀ r < P, ∀ x, Packed dim (E r x) (B r x) (A r x)) (n : ℕ) (x : ℕ → σ)
    (hne : ∀ i < n, ∀ r < P, (r ≠ 0 → B r (lockstep P upd B A i x r) ≠ []) ∧ (r + 1 < P → A r (lockstep P upd B A i x r) ≠ [])) :
    Completes P (fun r => iterate P dim E upd n r (x r)) (lockstep P upd B A n x) :=
  completes_of_preach (iterate_run P dim E upd hP hE n x hne)

end iter

/-- Three ranks with one point for each neighbour. -/
example : ∃ E B A : ℕ → List (List ℚ), (∀ r < 3, Packed 2 (E r) (B r) (A r)) ∧ (∀ r < 3, r ≠ 0 → B r ≠ []) ∧ (∀ r, r + 1 < 3 → A r ≠ []) ∧
    incoming 3 B A 1 = [[2, 0], [0, 1]] := by
  refine ⟨fun r => [[1, 1, 0], [r, 0, 5], [r, 1, 6], [-1, -1, -1]], fun r => [[r, 0]], fun r => [[r, 1]], ?_, by simp, by simp, by simp [incoming]⟩
  intro r _
  exact ⟨[0], [[r, 0, 5]], [[r, 1, 6]], [[-1, -1, -1]], by simp, by simp, by simp⟩

/-! ## C63 -/

theorem minRecv_body {P r q nsb nsa : ℕ} {below above : List (List K)} (h : ¬ (nsb = 0 ∧ nsa = 0)) (hr : r < P) (hq : q < P)
    (hn : q = r + 1 ∨ r = q + 1) : MinRecv q 11 1 (body r P nsb nsa below above) := by
  rw [body, if_neg h]
  have key : ∀ (c1 c2 : Prop) [Decidable c1] [Decidable c2] (d1 d2 : ℕ), MinRecv q 11 1 (do
      (if c1 then send d1 11 below else pure ())
      let up ← (if r ≠ P - 1 then recv (r + 1) 11 else pure [])
      (if c2 then send d2 11 above else pure ())
      let down ← (if r ≠ 0 then recv (r - 1) 11 else pure [])
      pure (up ++ down) : Proc (List (List K)) (List (List K))) := by
    intro c1 c2 _ _ d1 d2
    have inner : ∀ (n : ℕ) (x : List (List K)), (n = 0 ∨ (n = 1 ∧ r = q + 1)) → MinRecv q 11 n (do
        (if c2 then send d2 11 above else pure ())
        let down ← (if r ≠ 0 then recv (r - 1) 11 else pure [])
        pure (x ++ down) : Proc (List (List K)) (List (List K))) := by
      intro n x hx
      rcases hx with rfl | ⟨rfl, rfl⟩
      · exact .zero _
      · have : MinRecv (M := List (List K)) (R := List (List K)) q 11 1 (.recv q 11 fun y => .ret (x ++ y)) := .recv 0 _ fun _ => .zero _
        by_cases h2 : c2
        · rw [if_pos h2, if_pos (by omega)]
          exact .send _ _ _ _ _ this
        · rw [if_neg h2, if_pos (by omega)]
          exact this
    have outer : MinRecv q 11 1 (do
        let up ← (if r ≠ P - 1 then recv (r + 1) 11 else pure [])
        (if c2 then send d2 11 above else pure ())
        let down ← (if r ≠ 0 then recv (r - 1) 11 else pure [])
        pure (up ++ down) : Proc (List (List K)) (List (List K))) := by
      by_cases h1 : r = P - 1
      · have := inner 1 [] (Or.inr ⟨rfl, by omega⟩)
        rw [if_neg (not_not.2 h1)]
        exact this
      · rw [if_pos h1]
        show MinRecv q 11 1 (.recv (r + 1) 11 _)
        rcases hn with rfl | rfl
        · exact .recv 0 _ fun m => .zero _
        · exact .other 1 _ _ _ (Or.inl (by omega)) fun m => inner 1 m (Or.inr ⟨rfl, rfl⟩)
    by_cases h1 : c1
    · rw [if_pos h1]
      exact .send _ _ _ _ _ outer
    · rw [if_neg h1]
      exact outer
  exact key _ _ _ _

theorem maxSend_body {P r q nsb nsa : ℕ} {below above : List (List K)} (hb : q + 1 = r → nsb = 0) (ha : q = r + 1 → nsa = 0) :
    MaxSend q 11 0 (body r P nsb nsa below above) := by
  rw [body]
  by_cases h : nsb = 0 ∧ nsa = 0
  · rw [if_pos h]; exact .ret _ _
  rw [if_neg h]
  have s3 : ∀ x : List (List K), MaxSend q 11 0 (do
      let down ← (if r ≠ 0 then recv (r - 1) 11 else pure [])
      pure (x ++ down) : Proc (List (List K)) (List (List K))) := by
    intro x
    by_cases h0 : r = 0
    · rw [if_neg (not_not.2 h0)]; exact .ret _ _
    · rw [if_pos h0]; exact .recv _ _ _ _ fun m => .ret _ _
  have s2 : ∀ x : List (List K), MaxSend q 11 0 (do
      (if nsa ≠ 0 ∧ r ≠ P - 1 then send (r + 1) 11 above else pure ())
      let down ← (if r ≠ 0 then recv (r - 1) 11 else pure [])
      pure (x ++ down) : Proc (List (List K)) (List (List K))) := by
    intro x
    by_cases h1 : nsa ≠ 0 ∧ r ≠ P - 1
    · rw [if_pos h1]
      exact .other _ _ _ _ _ (Or.inl fun e => h1.1 (ha e.symm)) (s3 x)
    · rw [if_neg h1]; exact s3 x
  have s1 : MaxSend q 11 0 (do
      let up ← (if r ≠ P - 1 then recv (r + 1) 11 else pure [])
      (if nsa ≠ 0 ∧ r ≠ P - 1 then send (r + 1) 11 above else pure ())
      let down ← (if r ≠ 0 then recv (r - 1) 11 else pure [])
      pure (up ++ down) : Proc (List (List K)) (List (List K))) := by
    by_cases h1 : r = P - 1
    · rw [if_neg (not_not.2 h1)]; exact s2 []
    · rw [if_pos h1]; exact .recv _ _ _ _ fun m => s2 m
  by_cases h1 : nsb ≠ 0 ∧ r ≠ 0
  · rw [if_pos h1]
    exact .other _ _ _ _ _ (Or.inl fun e => h1.1 (hb (by omega))) s1
  · rw [if_neg h1]; exact s1

/-- **C63 (when it does complete).** On two or more ranks `exchange` completes exactly if either no rank has anything to
send to any side, or every rank has something to send to each of its neighbours. In every other case some rank waits
forever, whatever the schedule and the buffering. -/
theorem C63_iff_partial [IsStrictOrderedRing K] {P dim : ℕ} (hP : 2 ≤ P) {E B A : ℕ → List (List K)} (hE : ∀ r < P, Packed dim (E r) (B r) (A r)) :
    (∃ out, Completes P (fun r => exchange r P dim (E r)) out) ↔
      (∀ r < P, B r = [] ∧ A r = []) ∨ (∀ r < P, (r ≠ 0 → B r ≠ []) ∧ (r + 1 < P → A r ≠ [])) := by
  constructor
  · rintro ⟨out, h⟩
    by_cases hall : ∀ r < P, B r = [] ∧ A r = []
    · exact Or.inl hall
    · right
      push Not at hall
      obtain ⟨r0, hr0, hr0'⟩ := hall
      obtain ⟨n, s, hrun, hf⟩ := h.exists_final
      -- a rank that waits gets something from each neighbour
      have hsend : ∀ r < P, ¬ ((B r).length = 0 ∧ (A r).length = 0) → ∀ q < P, (q = r + 1 → B q ≠ []) ∧ (r = q + 1 → A q ≠ []) := by
        intro r hr hne q hq
        constructor
        · rintro rfl hnil
          have h1 : MinRecv (r + 1) 11 1 (exchange r P dim (E r)) := by
            rw [exchange_packed (hE r hr)]; exact minRecv_body hne hr hq (Or.inl rfl)
          have h2 : MaxSend r 11 0 (exchange (r + 1) P dim (E (r + 1))) := by
            rw [exchange_packed (hE _ hq)]; exact maxSend_body (fun _ => by simp [hnil]) (fun e => by omega)
          exact never_returns (prog := fun r => exchange r P dim (E r)) h1 h2 (by omega) hrun _ (hf r hr)
        · rintro rfl hnil
          have h1 : MinRecv q 11 1 (exchange (q + 1) P dim (E (q + 1))) := by
            rw [exchange_packed (hE _ hr)]; exact minRecv_body hne hr hq (Or.inr rfl)
          have h2 : MaxSend (q + 1) 11 0 (exchange q P dim (E q)) := by
            rw [exchange_packed (hE q hq)]; exact maxSend_body (fun e => by omega) (fun _ => by simp [hnil])
          exact never_returns (prog := fun r => exchange r P dim (E r)) h1 h2 (by omega) hrun _ (hf _ hr)
      have hne0 : ¬ ((B r0).length = 0 ∧ (A r0).length = 0) := by
        rintro ⟨h1, h2⟩
        exact hr0' (List.length_eq_zero_iff.1 h1) (List.length_eq_zero_iff.1 h2)
      have hup : ∀ d, r0 + d < P → ¬ ((B (r0 + d)).length = 0 ∧ (A (r0 + d)).length = 0) := by
        intro d
        induction d with
        | zero => intro _; exact hne0
        | succ d ih =>
          rintro hlt ⟨h1, -⟩
          exact (hsend (r0 + d) (by omega) (ih (by omega)) (r0 + d + 1) hlt).1 rfl (List.length_eq_zero_iff.1 h1)
      have hdown : ∀ d ≤ r0, ¬ ((B (r0 - d)).length = 0 ∧ (A (r0 - d)).length = 0) := by
        intro d
        induction d with
        | zero => intro _; exact hne0
        | succ d ih =>
          rintro hlt ⟨-, h2⟩
          exact (hsend (r0 - d) (by omega) (ih (by omega)) (r0 - (d + 1)) (by omega)).2 (by omega) (List.length_eq_zero_iff.1 h2)
      have hne : ∀ r < P, ¬ ((B r).length = 0 ∧ (A r).length = 0) := by
        intro r hr
        rcases le_total r0 r with h | h
        · have := hup (r - r0) (by omega)
          rwa [Nat.add_sub_cancel' h] at this
        · have := hdown (r0 - r) (by omega)
          rwa [Nat.sub_sub_self h] at this
      intro r hr
      refine ⟨fun h0 => ?_, fun h1 => ?_⟩
      · exact (hsend (r - 1) (by omega) (hne _ (by omega)) r hr).1 (by omega)
      · exact (hsend (r + 1) h1 (hne _ h1) r hr).2 rfl
  · rintro (h | h)
    · refine ⟨fun _ => [[]], completes_of_preach (PReach.refl fun r hr => ?_)⟩
      obtain ⟨h1, h2⟩ := h r hr
      rw [exchange_packed (hE r hr), body, h1, h2]
      simp [pure]
    · exact ⟨_, C62_exchange hP hE (fun r hr => (h r hr).1) fun r hr => (h r (by omega)).2 hr⟩

/-- If no rank has anything to send, each gets an array with one row (and no columns), not an empty one. -/
theorem C63_nothing_to_send [IsStrictOrderedRing K] {P dim : ℕ} {E : ℕ → List (List K)} (hE : ∀ r < P, Packed dim (E r) [] []) :
    Completes P (fun r => exchange r P dim (E r)) fun _ => [[]] := by
  apply completes_of_preach
  apply PReach.refl
  intro r hr
  rw [exchange_packed (hE r hr), body]
  simp [pure]

/-- **C63 is false.** Rank 0 has nothing to send, rank 1 has a point for rank 0: rank 1 never returns. -/
theorem C63_false : ∃ E B A : ℕ → List (List ℚ), (∀ r < 2, Packed 2 (E r) (B r) (A r)) ∧
    (∀ n s, Run 2 false n (init fun r => exchange r 2 2 (E r)) s → ∀ x, (s 1).proc ≠ .ret x) ∧
    ¬ ∃ out, Completes 2 (fun r => exchange r 2 2 (E r)) out := by
  refine ⟨fun r => if r = 0 then [[0, 0, 0]] else [[1, 0, 0], [3, 4, 7]], fun r => if r = 0 then [] else [[3, 4]], fun _ => [], ?_, ?_, ?_⟩
  · intro r hr
    have : r = 0 ∨ r = 1 := by omega
    rcases this with rfl | rfl
    · exact ⟨[0], [], [], [], by simp, by simp, by simp⟩
    · exact ⟨[0], [[3, 4, 7]], [], [], by simp, by simp, by simp⟩
  · intro n s hs x
    have h1 : MinRecv 0 11 1 (exchange 1 2 2 ([[1, 0, 0], [3, 4, 7]] : List (List ℚ))) := by
      rw [exchange_packed (below := [[3, 4]]) (above := []) ⟨[0], [[3, 4, 7]], [], [], by simp, by simp, by simp⟩]
      exact minRecv_body (by simp) (by omega) (by omega) (Or.inr rfl)
    have h2 : MaxSend 1 11 0 (exchange 0 2 2 ([[0, 0, 0]] : List (List ℚ))) := by
      rw [exchange_packed (below := []) (above := []) ⟨[0], [], [], [], by simp, by simp, by simp⟩]
      exact maxSend_body (by simp) (by simp)
    exact never_returns (a := 0) (b := 1) (n := 1) (k := 0) (prog := fun r => exchange r 2 2 _) (by simpa using h1) (by simpa using h2) (by omega) hs x
  · rintro ⟨out, h⟩
    have := (C63_iff_partial (K := ℚ) (P := 2) (dim := 2) (by omega) (E := fun r => if r = 0 then [[0, 0, 0]] else [[1, 0, 0], [3, 4, 7]])
      (B := fun r => if r = 0 then [] else [[3, 4]]) (A := fun _ => []) (by
        intro r hr
        have : r = 0 ∨ r = 1 := by omega
        rcases this with rfl | rfl
        · exact ⟨[0], [], [], [], by simp, by simp, by simp⟩
        · exact ⟨[0], [[3, 4, 7]], [], [], by simp, by simp, by simp⟩)).1 ⟨out, h⟩
    rcases this with h | h
    · have := (h 1 (by omega)).1; simp at this
    · have := (h 0 (by omega)).2 (by omega); simp at this

section mix

/-- Two ranks, two iterations; rank 0 has a point for rank 1 only in the first, rank 1 has a point for rank 0 only in the
second. The data of a rank is the list of the arrays it got. -/
def mixE (r : ℕ) (x : List (List (List ℚ))) : List (List ℚ) :=
  if r = 0 then (if x = [] then [[0, 1, 0], [5, 5, 0]] else [[0, 0, 0]])
  else (if x = [] then [[0, 0, 0]] else [[1, 0, 0], [7, 7, 0]])

/-- **C63, iterations are mixed up.** The two ranks complete, but rank 0 gets in its first iteration the point that rank 1 sent in
its second, and rank 1 gets in its second iteration the point that rank 0 sent in its first. -/
theorem C63_mixes_iterations :
    Completes 2 (fun r => iterate 2 2 mixE (fun _ x y => x ++ [y]) 2 r []) fun r => if r = 0 then [[[7, 7]], [[]]] else [[[]], [[5, 5]]] := by
  have e0 : ∀ rank, exchange rank 2 2 ([[0, 0, 0]] : List (List ℚ)) = .ret [[]] := by
    intro rank
    rw [exchange_packed (below := []) (above := []) ⟨[0], [], [], [], by simp, by simp, by simp⟩]
    simp [body, pure]
  have e1 : exchange 0 2 2 ([[0, 1, 0], [5, 5, 0]] : List (List ℚ)) =
      .recv 1 11 fun x => .send 1 11 [[5, 5]] (.ret (x ++ [])) := by
    rw [exchange_packed (below := []) (above := [[5, 5]]) ⟨[0], [], [[5, 5, 0]], [], by simp, by simp, by simp⟩]
    rfl
  have e2 : exchange 1 2 2 ([[1, 0, 0], [7, 7, 0]] : List (List ℚ)) =
      .send 0 11 [[7, 7]] (.recv 0 11 fun y => .ret ([] ++ y)) := by
    rw [exchange_packed (below := [[7, 7]]) (above := []) ⟨[0], [[7, 7, 0]], [], [], by simp, by simp, by simp⟩]
    rfl
  set fin : ℕ → List (List (List ℚ)) := fun r => if r = 0 then [[[7, 7]], [[]]] else [[[]], [[5, 5]]] with hfin
  have p0 : iterate 2 2 mixE (fun _ x y => x ++ [y]) 2 0 [] = .recv 1 11 fun x => .send 1 11 [[5, 5]] (.ret [x ++ [], [[]]]) := by
    simp [iterate, mixE, e0, e1, Proc.bind]
  have p1 : iterate 2 2 mixE (fun _ x y => x ++ [y]) 2 1 [] = .send 0 11 [[7, 7]] (.recv 0 11 fun y => .ret [[[]], y]) := by
    simp [iterate, mixE, e0, e2, Proc.bind]
  have hcases : ∀ r < 2, r = 0 ∨ r = 1 := by intro r hr; omega
  apply completes_of_preach
  refine PReach.trans (g := fun r => if r = 0 then .send 1 11 [[5, 5]] (.ret [[[7, 7]], [[]]]) else .recv 0 11 fun y => .ret [[[]], y]) ?_ ?_
  · refine PReach.transfer (a := 1) (b := 0) (by omega) (by omega) (by omega) p1 p0 ?_ ?_ ?_
    · simp
    · simp
    · intro r hr; have := hcases r hr; omega
  · refine PReach.transfer (a := 0) (b := 1) (t := 11) (by omega) (by omega) (by omega) (by simp only [if_true]; rfl) (by simp only [Nat.one_ne_zero, if_false]; rfl) ?_ ?_ ?_
    · simp [hfin]
    · simp [hfin]
    · intro r hr; have := hcases r hr; omega

end mix

end SM.Exchange
