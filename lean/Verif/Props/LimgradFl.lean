import Verif.Model.LimgradFl
import Verif.Props.Limgrad
import Verif.Lemmas.Binary64

/-!
# C106: the gradient limiter in floating-point arithmetic

The guarantees of C01 to C05 for any rounded arithmetic (`Rounded`): what a user of the compiled limiter sees, not only the
limiter in exact arithmetic. `C106_binary64` shows that binary64 rounding is an instance.
-/

set_option linter.unusedSectionVars false

namespace SM.LimgradFl

open SM.Limgrad (St findIndices nbrs NbIn Node InGrid Adjacent at3 IsMin flattenF reshapeF lin exists_lin lin_lt mem_findIndices
  nbIn_nbrs nbrs_symm adjacent_nbrs nbrs_adjacent flatten_lin reshape_lin)

variable {F : Type} [LinearOrder F] {O : Arith F}

/-- What is used of rounded arithmetic: adding a non-negative number does not decrease, addition is monotone, and
products of non-negative numbers are non-negative. -/
structure Rounded (O : Arith F) : Prop where
  le_add : ∀ x t, O.zero ≤ t → x ≤ O.add x t
  add_mono : ∀ x y t, x ≤ y → O.add x t ≤ O.add y t
  mul_nonneg : ∀ x y, O.zero ≤ x → O.zero ≤ y → O.zero ≤ O.mul x y

theorem visit_ind {P : St F → Prop} {elen dfdx ftol : F} {nb : ℕ → List ℕ} {iter : ℤ} {a : ℕ}
    (h : ∀ s b, b ∈ nb a → P s → P (relax O elen dfdx ftol iter s a b)) :
    ∀ s, P s → P (visit O elen dfdx ftol nb iter s a) := by
  unfold visit
  generalize nb a = l at h
  induction l with
  | nil => intro s hs; simpa using hs
  | cons b l ih =>
    intro s hs
    simp only [List.foldl_cons]
    exact ih (fun s c hc => h s c (List.mem_cons_of_mem _ hc)) _ (h s b (by simp) hs)

theorem sweep_ind {P : St F → Prop} {elen dfdx ftol : F} {nb : ℕ → List ℕ} {iter : ℤ} {l : List ℕ}
    (h : ∀ s a, a ∈ l → ∀ b, b ∈ nb a → P s → P (relax O elen dfdx ftol iter s a b)) :
    ∀ s, P s → P (sweep O elen dfdx ftol nb iter l s) := by
  unfold sweep
  induction l with
  | nil => intro s hs; simpa using hs
  | cons a l ih =>
    intro s hs
    simp only [List.foldl_cons]
    exact ih (fun s c hc => h s c (List.mem_cons_of_mem _ hc)) _
      (visit_ind (fun s b hb hs => h s a (by simp) b hb hs) s hs)

theorem loop_ind {P : St F → Prop} {elen dfdx ftol : F} {nb : ℕ → List ℕ} {N : ℕ}
    (h : ∀ iter s a, a < N → ∀ b, b ∈ nb a → P s → P (relax O elen dfdx ftol iter s a b)) :
    ∀ n iter s, P s → P (loop O elen dfdx ftol nb N n iter s).1 := by
  intro n
  induction n with
  | zero => intro iter s hs; simpa [loop] using hs
  | succ n ih =>
    intro iter s hs
    unfold loop
    simp only
    split
    · exact hs
    · apply ih
      apply sweep_ind _ _ hs
      intro s a ha b hb
      exact h iter s a (mem_findIndices.1 ha).1 b hb

/-- The value a neighbour may force, and the threshold above which it does. -/
def up (O : Arith F) (elen dfdx : F) (x : F) : F := O.add x (O.mul elen dfdx)

def thr (O : Arith F) (elen dfdx ftol : F) (x : F) : F := O.add (up O elen dfdx x) ftol

theorem relax_cases (elen dfdx ftol : F) (iter : ℤ) (s : St F) (a b : ℕ) :
    (relax O elen dfdx ftol iter s a b = s ∧ (s.val a > s.val b → s.val a ≤ thr O elen dfdx ftol (s.val b)) ∧
        (s.val a ≤ s.val b → s.val b ≤ thr O elen dfdx ftol (s.val a))) ∨
    (∃ hi lo, ((hi = a ∧ lo = b) ∨ (hi = b ∧ lo = a)) ∧ s.val hi > thr O elen dfdx ftol (s.val lo) ∧
      relax O elen dfdx ftol iter s a b =
        { val := Function.update s.val hi (up O elen dfdx (s.val lo)),
          mark := Function.update s.mark hi iter }) := by
  unfold relax thr up
  by_cases h1 : s.val a > s.val b
  · by_cases h2 : s.val a > O.add (O.add (s.val b) (O.mul elen dfdx)) ftol
    · right; exact ⟨a, b, Or.inl ⟨rfl, rfl⟩, h2, by simp [h1, h2]⟩
    · left
      refine ⟨by simp [h1, h2], fun _ => not_lt.1 h2, fun h => absurd h1 (not_lt.2 h)⟩
  · by_cases h2 : s.val b > O.add (O.add (s.val a) (O.mul elen dfdx)) ftol
    · right; exact ⟨b, a, Or.inr ⟨rfl, rfl⟩, h2, by simp [h1, h2]⟩
    · left
      refine ⟨by simp [h1, h2], fun h => absurd h h1, fun _ => not_lt.1 h2⟩

theorem relax_le (hO : Rounded O) {elen dfdx ftol : F} (hft : O.zero ≤ ftol) (iter : ℤ) (s : St F) (a b n : ℕ) :
    (relax O elen dfdx ftol iter s a b).val n ≤ s.val n := by
  rcases relax_cases (O := O) elen dfdx ftol iter s a b with ⟨h, -⟩ | ⟨hi, lo, -, hgt, h⟩
  · rw [h]
  · rw [h]
    by_cases hn : n = hi
    · subst hn
      simp only [Function.update_self]
      exact ((hO.le_add _ _ hft).trans_lt hgt).le
    · simp [Function.update_of_ne hn]

theorem relax_ge (hO : Rounded O) {elen dfdx ftol : F} {N : ℕ} (g : ℕ → F) (iter : ℤ) (s : St F) (a b : ℕ)
    (hg1 : b < N) (hg0 : a < N) (hab : g a ≤ up O elen dfdx (g b)) (hba : g b ≤ up O elen dfdx (g a))
    (h : ∀ n < N, g n ≤ s.val n) : ∀ n < N, g n ≤ (relax O elen dfdx ftol iter s a b).val n := by
  intro n hn
  rcases relax_cases (O := O) elen dfdx ftol iter s a b with ⟨h', -⟩ | ⟨hi, lo, hc, hgt, h'⟩
  · rw [h']; exact h n hn
  · rw [h']
    by_cases hnn : n = hi
    · subst hnn
      simp only [Function.update_self]
      rcases hc with ⟨rfl, rfl⟩ | ⟨rfl, rfl⟩
      · exact hab.trans (hO.add_mono _ _ _ (h lo hg1))
      · exact hba.trans (hO.add_mono _ _ _ (h lo hg0))
    · simp [Function.update_of_ne hnn]; exact h n hn

theorem loop_le (hO : Rounded O) {elen dfdx ftol : F} (hft : O.zero ≤ ftol) {nb : ℕ → List ℕ} {N : ℕ} (n : ℕ) (iter : ℤ)
    (s : St F) (m : ℕ) : (loop O elen dfdx ftol nb N n iter s).1.val m ≤ s.val m := by
  exact loop_ind (P := fun s' => s'.val m ≤ s.val m)
    (fun iter s' a _ b _ h => (relax_le hO hft iter s' a b m).trans h) n iter s le_rfl

theorem loop_ge (hO : Rounded O) {elen dfdx ftol : F} {nb : ℕ → List ℕ} {N : ℕ} (hnb : NbIn nb N) (g : ℕ → F)
    (hg : ∀ a < N, ∀ b ∈ nb a, g a ≤ up O elen dfdx (g b) ∧ g b ≤ up O elen dfdx (g a))
    (n : ℕ) (iter : ℤ) (s : St F) (h : ∀ m < N, g m ≤ s.val m) :
    ∀ m < N, g m ≤ (loop O elen dfdx ftol nb N n iter s).1.val m := by
  exact loop_ind (P := fun s' => ∀ m < N, g m ≤ s'.val m)
    (fun iter s' a ha b hb h => relax_ge hO g iter s' a b (hnb a ha b hb) ha (hg a ha b hb).1
      (hg a ha b hb).2 h) n iter s h

theorem le_up (hO : Rounded O) {elen dfdx : F} (hst : O.zero ≤ O.mul elen dfdx) (x : F) : x ≤ up O elen dfdx x :=
  hO.le_add _ _ hst

theorem up_le_thr (hO : Rounded O) {elen dfdx ftol : F} (hft : O.zero ≤ ftol) (x : F) :
    up O elen dfdx x ≤ thr O elen dfdx ftol x := hO.le_add _ _ hft

theorem le_thr (hO : Rounded O) {elen dfdx ftol : F} (hst : O.zero ≤ O.mul elen dfdx) (hft : O.zero ≤ ftol) (x : F) :
    x ≤ thr O elen dfdx ftol x := (le_up hO hst x).trans (up_le_thr hO hft x)

theorem up_mono (hO : Rounded O) {elen dfdx x y : F} (h : x ≤ y) : up O elen dfdx x ≤ up O elen dfdx y :=
  hO.add_mono _ _ _ h

theorem thr_mono (hO : Rounded O) {elen dfdx ftol x y : F} (h : x ≤ y) : thr O elen dfdx ftol x ≤ thr O elen dfdx ftol y :=
  hO.add_mono _ _ _ (up_mono hO h)

/-! ### the bound on convergence -/

/-- Violated in the direction `a` above `b`. -/
def Viol (O : Arith F) (elen dfdx ftol : F) (s : St F) (a b : ℕ) : Prop := s.val a > thr O elen dfdx ftol (s.val b)

/-- Every violated edge has an endpoint in `L` or marked `iter`. -/
def Cov (O : Arith F) (elen dfdx ftol : F) (nb : ℕ → List ℕ) (N : ℕ) (iter : ℤ) (L : List ℕ) (s : St F) : Prop :=
  ∀ a < N, ∀ b ∈ nb a, Viol O elen dfdx ftol s a b ∨ Viol O elen dfdx ftol s b a →
    a ∈ L ∨ b ∈ L ∨ s.mark a = iter ∨ s.mark b = iter

/-- As `Cov`, with the edges between `c` and members of `Q` also excused. -/
def CovQ (O : Arith F) (elen dfdx ftol : F) (nb : ℕ → List ℕ) (N : ℕ) (iter : ℤ) (L : List ℕ) (c : ℕ) (Q : List ℕ)
    (s : St F) : Prop :=
  ∀ a < N, ∀ b ∈ nb a, Viol O elen dfdx ftol s a b ∨ Viol O elen dfdx ftol s b a →
    a ∈ L ∨ b ∈ L ∨ s.mark a = iter ∨ s.mark b = iter ∨ (a = c ∧ b ∈ Q) ∨ (b = c ∧ a ∈ Q)

theorem relax_covQ {elen dfdx ftol : F} (hO : Rounded O) (hst : O.zero ≤ O.mul elen dfdx) (hft : O.zero ≤ ftol) {nb : ℕ → List ℕ} {N : ℕ} {iter : ℤ}
    {L : List ℕ} {c q : ℕ} {Q : List ℕ} {s : St F}
    (h : CovQ O elen dfdx ftol nb N iter L c (q :: Q) s) :
    CovQ O elen dfdx ftol nb N iter L c Q (relax O elen dfdx ftol iter s c q) := by
  intro a ha b hb hv
  rcases relax_cases (O := O) elen dfdx ftol iter s c q with ⟨hr, hno, hno2⟩ | ⟨hi, lo, hc, hgt, hr⟩
  · rw [hr] at hv ⊢
    have hcq : ¬ (Viol O elen dfdx ftol s c q ∨ Viol O elen dfdx ftol s q c) := by
      unfold Viol
      rintro (h' | h')
      · rcases lt_or_ge (s.val q) (s.val c) with hlt | hle
        · exact absurd (hno hlt) (not_le.2 h')
        · exact absurd (hle.trans (le_thr hO hst hft _)) (not_le.2 h')
      · rcases lt_or_ge (s.val q) (s.val c) with hlt | hle
        · exact absurd (hlt.le.trans (le_thr hO hst hft _)) (not_le.2 h')
        · exact absurd (hno2 hle) (not_le.2 h')
    rcases h a ha b hb hv with h | h | h | h | ⟨h1, h2⟩ | ⟨h1, h2⟩
    · exact Or.inl h
    · exact Or.inr (Or.inl h)
    · exact Or.inr (Or.inr (Or.inl h))
    · exact Or.inr (Or.inr (Or.inr (Or.inl h)))
    · rcases List.mem_cons.1 h2 with h2 | h2
      · subst h1; subst h2; exact absurd hv hcq
      · exact Or.inr (Or.inr (Or.inr (Or.inr (Or.inl ⟨h1, h2⟩))))
    · rcases List.mem_cons.1 h2 with h2 | h2
      · subst h1; subst h2; exact absurd hv.symm hcq
      · exact Or.inr (Or.inr (Or.inr (Or.inr (Or.inr ⟨h1, h2⟩))))
  · rw [hr] at hv ⊢
    by_cases haI : a = hi
    · subst haI; exact Or.inr (Or.inr (Or.inl (by simp)))
    · by_cases hbI : b = hi
      · subst hbI; exact Or.inr (Or.inr (Or.inr (Or.inl (by simp))))
      · have hv' : Viol O elen dfdx ftol s a b ∨ Viol O elen dfdx ftol s b a := by
          unfold Viol at hv ⊢
          simpa only [Function.update_of_ne haI, Function.update_of_ne hbI] using hv
        simp only [Function.update_of_ne haI, Function.update_of_ne hbI]
        rcases h a ha b hb hv' with h | h | h | h | ⟨h1, h2⟩ | ⟨h1, h2⟩
        · exact Or.inl h
        · exact Or.inr (Or.inl h)
        · exact Or.inr (Or.inr (Or.inl h))
        · exact Or.inr (Or.inr (Or.inr (Or.inl h)))
        · rcases List.mem_cons.1 h2 with h2 | h2
          · exfalso; subst h1; subst h2; rcases hc with ⟨h, -⟩ | ⟨h, -⟩
            · exact haI h.symm
            · exact hbI h.symm
          · exact Or.inr (Or.inr (Or.inr (Or.inr (Or.inl ⟨h1, h2⟩))))
        · rcases List.mem_cons.1 h2 with h2 | h2
          · exfalso; subst h1; subst h2; rcases hc with ⟨h, -⟩ | ⟨h, -⟩
            · exact hbI h.symm
            · exact haI h.symm
          · exact Or.inr (Or.inr (Or.inr (Or.inr (Or.inr ⟨h1, h2⟩))))

theorem visit_cov {elen dfdx ftol : F} (hO : Rounded O) (hst : O.zero ≤ O.mul elen dfdx) (hft : O.zero ≤ ftol) {nb : ℕ → List ℕ} {N : ℕ}
    (hsym : ∀ a < N, ∀ b ∈ nb a, a ∈ nb b) {iter : ℤ}
    {L : List ℕ} {c : ℕ} {s : St F} (h : Cov O elen dfdx ftol nb N iter (c :: L) s) :
    Cov O elen dfdx ftol nb N iter L (visit O elen dfdx ftol nb iter s c) := by
  have h0 : CovQ O elen dfdx ftol nb N iter L c (nb c) s := by
    intro a ha b hb hv
    rcases h a ha b hb hv with h | h | h | h
    · rcases List.mem_cons.1 h with rfl | h
      · tauto
      · tauto
    · rcases List.mem_cons.1 h with rfl | h
      · have := hsym a ha b hb; tauto
      · tauto
    · tauto
    · tauto
  have key : ∀ (Q : List ℕ) (s : St F), CovQ O elen dfdx ftol nb N iter L c Q s →
      CovQ O elen dfdx ftol nb N iter L c [] (Q.foldl (fun s b => relax O elen dfdx ftol iter s c b) s) := by
    intro Q
    induction Q with
    | nil => intro s h; exact h
    | cons q Q ih => intro s h; exact ih _ (relax_covQ hO hst hft h)
  have := key _ _ h0
  intro a ha b hb hv
  rcases this a ha b hb hv with h | h | h | h | ⟨_, h⟩ | ⟨_, h⟩
  · tauto
  · tauto
  · tauto
  · tauto
  · simp at h
  · simp at h

theorem sweep_cov {elen dfdx ftol : F} (hO : Rounded O) (hst : O.zero ≤ O.mul elen dfdx) (hft : O.zero ≤ ftol) {nb : ℕ → List ℕ} {N : ℕ}
    (hsym : ∀ a < N, ∀ b ∈ nb a, a ∈ nb b) {iter : ℤ} :
    ∀ {L : List ℕ} {s : St F}, Cov O elen dfdx ftol nb N iter L s →
    Cov O elen dfdx ftol nb N iter [] (sweep O elen dfdx ftol nb iter L s) := by
  intro L
  induction L with
  | nil => intro s h; simpa [sweep] using h
  | cons c L ih => intro s h; exact ih (visit_cov hO hst hft hsym h)

theorem loop_conv {elen dfdx ftol : F} (hO : Rounded O) (hst : O.zero ≤ O.mul elen dfdx) (hft : O.zero ≤ ftol) {nb : ℕ → List ℕ} {N : ℕ}
    (hnb : NbIn nb N) (hsym : ∀ a < N, ∀ b ∈ nb a, a ∈ nb b) :
    ∀ (n : ℕ) (iter : ℤ) (s : St F), Cov O elen dfdx ftol nb N (iter - 1) [] s →
    (loop O elen dfdx ftol nb N n iter s).2 = true →
    ∀ a < N, ∀ b ∈ nb a, (loop O elen dfdx ftol nb N n iter s).1.val a ≤
      thr O elen dfdx ftol ((loop O elen dfdx ftol nb N n iter s).1.val b) := by
  intro n
  induction n with
  | zero => intro iter s _ h; simp [loop] at h
  | succ n ih =>
    intro iter s hs
    unfold loop
    simp only
    split
    · rename_i hemp
      intro _ a ha b hb
      by_contra hcon
      have hnil : findIndices N s.mark (iter - 1) = [] := by simpa using hemp
      rcases hs a ha b hb (Or.inl (not_le.1 hcon)) with h | h | h | h
      · simp at h
      · simp at h
      · have : a ∈ findIndices N s.mark (iter - 1) := mem_findIndices.2 ⟨ha, h⟩
        rw [hnil] at this; simp at this
      · have : b ∈ findIndices N s.mark (iter - 1) := mem_findIndices.2 ⟨hnb a ha b hb, h⟩
        rw [hnil] at this; simp at this
    · apply ih
      have : iter + 1 - 1 = iter := by ring
      rw [this]
      apply sweep_cov hO hst hft hsym
      intro a ha b hb hv
      rcases hs a ha b hb hv with h | h | h | h
      · simp at h
      · simp at h
      · left; exact mem_findIndices.2 ⟨ha, h⟩
      · right; left; exact mem_findIndices.2 ⟨hnb a ha b hb, h⟩


/-! ### the number of sweeps -/

/-- The node still has to be compared with its neighbours. -/
def Pend (iter : ℤ) (L : List ℕ) (s : St F) (x : ℕ) : Prop := x ∈ L ∨ s.mark x = iter

/-- Invariant while node `c` is visited: `Q` are the neighbours not yet compared, `L` the nodes still to
visit, `B` the lower bound of the values written in the previous sweep, `M` an upper bound of all values. -/
structure SInv (O : Arith F) (elen dfdx ftol B M : F) (nb : ℕ → List ℕ) (N : ℕ) (iter : ℤ) (L : List ℕ) (c : ℕ) (Q : List ℕ)
    (s : St F) : Prop where
  ok : ∀ b < N, ¬ Pend iter L s b → ∀ a ∈ nb b, ¬ (b = c ∧ a ∈ Q) → s.val a ≤ thr O elen dfdx ftol (s.val b)
  low : ∀ x < N, x ∈ L ∨ x = c → B ≤ s.val x
  new : ∀ x < N, s.mark x = iter → up O elen dfdx B ≤ s.val x
  top : ∀ x < N, s.val x ≤ M
  wit : (∃ x < N, s.mark x = iter) → thr O elen dfdx ftol B < M

theorem SInv.relax {elen dfdx ftol B M : F} (hO : Rounded O) (hst : O.zero ≤ O.mul elen dfdx) (hft : O.zero ≤ ftol) {nb : ℕ → List ℕ} {N : ℕ}
    (hnb : NbIn nb N) (hsym : ∀ a < N, ∀ b ∈ nb a, a ∈ nb b) {iter : ℤ} {L : List ℕ} {c q : ℕ} {Q : List ℕ}
    {s : St F} (hc : c < N) (hq : q ∈ nb c) (h : SInv O elen dfdx ftol B M nb N iter L c (q :: Q) s) :
    SInv O elen dfdx ftol B M nb N iter L c Q (relax O elen dfdx ftol iter s c q) := by
  have hqN : q < N := hnb c hc q hq
  rcases relax_cases (O := O) elen dfdx ftol iter s c q with ⟨hr, hno, hno2⟩ | ⟨hi, lo, hcase, hgt, hr⟩
  · rw [hr]
    refine ⟨fun b hb hp a ha hex => ?_, h.low, h.new, h.top, h.wit⟩
    by_cases hbq : b = c ∧ a = q
    · obtain ⟨rfl, rfl⟩ := hbq
      rcases lt_or_ge (s.val a) (s.val b) with hlt | hle
      · exact hlt.le.trans (le_thr hO hst hft _)
      · exact hno2 hle
    · refine h.ok b hb hp a ha ?_
      rintro ⟨rfl, hm⟩
      rcases List.mem_cons.1 hm with rfl | hm
      · exact hbq ⟨rfl, rfl⟩
      · exact hex ⟨rfl, hm⟩
  · have hne : hi ≠ lo := by rintro rfl; exact absurd (le_thr hO hst hft _) (not_le.2 hgt)
    have hhiN : hi < N := by rcases hcase with ⟨rfl, -⟩ | ⟨rfl, -⟩ <;> assumption
    have hloB : B ≤ s.val lo := by
      rcases hcase with ⟨rfl, rfl⟩ | ⟨rfl, rfl⟩
      · by_cases hp : Pend iter L s lo
        · rcases hp with hp | hp
          · exact h.low lo hqN (Or.inl hp)
          · exact (le_up hO hst B).trans (h.new lo hqN hp)
        · have := h.ok lo hqN hp hi (hsym hi hc lo hq) (fun e => hne e.1.symm)
          exact absurd this (not_le.2 hgt)
      · exact h.low lo hc (Or.inr rfl)
    rw [hr]
    have hmark : ∀ x, x ≠ hi → Function.update s.mark hi iter x = s.mark x := fun x hx => by
      rw [Function.update_of_ne hx]
    have hval : ∀ x, x ≠ hi → Function.update s.val hi (up O elen dfdx (s.val lo)) x = s.val x := fun x hx => by
      rw [Function.update_of_ne hx]
    have hself : Function.update s.val hi (up O elen dfdx (s.val lo)) hi = up O elen dfdx (s.val lo) := by simp
    refine ⟨fun b hb hp a ha hex => ?_, fun x hx hl => ?_, fun x hx hm => ?_, fun x hx => ?_, fun _ => ?_⟩
    · simp only [Pend] at hp
      have hbhi : b ≠ hi := by
        rintro rfl
        exact hp (Or.inr (by simp))
      simp only [hmark b hbhi] at hp
      simp only []
      rw [hval b hbhi]
      by_cases hahi : a = hi
      · subst hahi
        rw [hself]
        by_cases hbl : b = lo
        · subst hbl; exact up_le_thr hO hft _
        · have := h.ok b hb hp a ha (by
            rintro ⟨rfl, hm⟩
            rcases hcase with ⟨rfl, -⟩ | ⟨rfl, rfl⟩
            · exact hbhi rfl
            · exact hbl rfl)
          exact ((up_le_thr hO hft _).trans hgt.le).trans this
      · rw [hval a hahi]
        refine h.ok b hb hp a ha ?_
        rintro ⟨rfl, hm⟩
        rcases List.mem_cons.1 hm with rfl | hm
        · rcases hcase with ⟨e, -⟩ | ⟨e, -⟩
          · exact hbhi e.symm
          · exact hahi e.symm
        · exact hex ⟨rfl, hm⟩
    · simp only []
      by_cases hxh : x = hi
      · subst hxh; rw [hself]; exact hloB.trans (le_up hO hst _)
      · rw [hval x hxh]; exact h.low x hx hl
    · simp only [] at hm ⊢
      by_cases hxh : x = hi
      · subst hxh; rw [hself]; exact up_mono hO hloB
      · rw [hmark x hxh] at hm; rw [hval x hxh]; exact h.new x hx hm
    · simp only []
      by_cases hxh : x = hi
      · subst hxh; rw [hself]; exact ((up_le_thr hO hft _).trans hgt.le).trans (h.top x hx)
      · rw [hval x hxh]; exact h.top x hx
    · exact ((thr_mono hO hloB).trans_lt hgt).trans_le (h.top hi hhiN)

theorem SInv.visit {elen dfdx ftol B M : F} (hO : Rounded O) (hst : O.zero ≤ O.mul elen dfdx) (hft : O.zero ≤ ftol) {nb : ℕ → List ℕ} {N : ℕ}
    (hnb : NbIn nb N) (hsym : ∀ a < N, ∀ b ∈ nb a, a ∈ nb b) {iter : ℤ} {L : List ℕ} {c c' : ℕ}
    {s : St F} (hc : c < N) (h : SInv O elen dfdx ftol B M nb N iter (c :: L) c' [] s) (hc' : B ≤ s.val c) :
    SInv O elen dfdx ftol B M nb N iter L c [] (visit O elen dfdx ftol nb iter s c) := by
  have h0 : SInv O elen dfdx ftol B M nb N iter L c (nb c) s := by
    refine ⟨fun b hb hp a ha hex => ?_, fun x hx hl => ?_, h.new, h.top, h.wit⟩
    · by_cases hbc : b = c
      · subst hbc; exact absurd ⟨rfl, ha⟩ hex
      · refine h.ok b hb ?_ a ha (by simp)
        rintro (hm | hm)
        · rcases List.mem_cons.1 hm with e | hm
          · exact hbc e
          · exact hp (Or.inl hm)
        · exact hp (Or.inr hm)
    · rcases hl with hl | rfl
      · exact h.low x hx (Or.inl (List.mem_cons_of_mem _ hl))
      · exact hc'
  have key : ∀ (Q : List ℕ), (∀ q ∈ Q, q ∈ nb c) → ∀ s : St F, SInv O elen dfdx ftol B M nb N iter L c Q s →
      SInv O elen dfdx ftol B M nb N iter L c [] (Q.foldl (fun s b => LimgradFl.relax O elen dfdx ftol iter s c b) s) := by
    intro Q
    induction Q with
    | nil => intro _ s h; exact h
    | cons q Q ih =>
      intro hQ s h
      exact ih (fun q' h' => hQ q' (List.mem_cons_of_mem _ h')) _
        (SInv.relax hO hst hft hnb hsym hc (hQ q (by simp)) h)
  exact key (nb c) (fun q h => h) s h0

theorem SInv.sweep {elen dfdx ftol B M : F} (hO : Rounded O) (hst : O.zero ≤ O.mul elen dfdx) (hft : O.zero ≤ ftol) {nb : ℕ → List ℕ} {N : ℕ}
    (hnb : NbIn nb N) (hsym : ∀ a < N, ∀ b ∈ nb a, a ∈ nb b) {iter : ℤ} :
    ∀ (L : List ℕ) (c : ℕ) (s : St F), (∀ a ∈ L, a < N) → SInv O elen dfdx ftol B M nb N iter L c [] s →
      ∃ c', SInv O elen dfdx ftol B M nb N iter [] c' [] (sweep O elen dfdx ftol nb iter L s)
  | [], c, s, _, h => ⟨c, h⟩
  | a :: L, c, s, hL, h =>
    SInv.sweep hO hst hft hnb hsym L a _ (fun x hx => hL x (List.mem_cons_of_mem _ hx))
      (SInv.visit hO hst hft hnb hsym (hL a (by simp)) h (h.low a (hL a (by simp)) (Or.inl (by simp))))

/-- What holds before sweep `t`. -/
structure Before (O : Arith F) (m elen dfdx ftol M : F) (nb : ℕ → List ℕ) (N t : ℕ) (s : St F) : Prop where
  ok : ∀ b < N, s.mark b ≠ (t : ℤ) - 1 → ∀ a ∈ nb b, s.val a ≤ thr O elen dfdx ftol (s.val b)
  low : ∀ x < N, s.mark x = (t : ℤ) - 1 → (up O elen dfdx)^[t] m ≤ s.val x
  marks : ∀ x < N, s.mark x < t
  top : ∀ x < N, s.val x ≤ M
  wit : (∃ x < N, s.mark x = (t : ℤ) - 1) → t = 0 ∨ O.add ((up O elen dfdx)^[t] m) ftol < M

theorem relax_mark {elen dfdx ftol : F} {iter : ℤ} {s : St F} {a b : ℕ} {u : ℤ} (h : ∀ x, s.mark x < u)
    (hu : iter < u) : ∀ x, (relax O elen dfdx ftol iter s a b).mark x < u := by
  intro x
  rcases relax_cases (O := O) elen dfdx ftol iter s a b with ⟨hr, -⟩ | ⟨hi, lo, -, -, hr⟩
  · rw [hr]; exact h x
  · rw [hr]
    simp only []
    by_cases hx : x = hi
    · subst hx; simpa using hu
    · rw [Function.update_of_ne hx]; exact h x

theorem Before.step {m elen dfdx ftol M : F} (hO : Rounded O) (hst : O.zero ≤ O.mul elen dfdx) (hft : O.zero ≤ ftol) {nb : ℕ → List ℕ} {N t : ℕ}
    (hnb : NbIn nb N) (hsym : ∀ a < N, ∀ b ∈ nb a, a ∈ nb b) {s : St F}
    (h : Before O m elen dfdx ftol M nb N t s) (hall : ∀ x, s.mark x < t)
    (hne : (findIndices N s.mark ((t : ℤ) - 1)) ≠ []) :
    Before O m elen dfdx ftol M nb N (t + 1) (sweep O elen dfdx ftol nb t (findIndices N s.mark ((t : ℤ) - 1)) s) ∧
      ∀ x, (sweep O elen dfdx ftol nb t (findIndices N s.mark ((t : ℤ) - 1)) s).mark x < ((t + 1 : ℕ) : ℤ) := by
  obtain ⟨c, l, hcl⟩ := List.exists_cons_of_ne_nil hne
  have hmemL : ∀ a ∈ findIndices N s.mark ((t : ℤ) - 1), a < N := fun a ha => (mem_findIndices.1 ha).1
  have hcL : c ∈ findIndices N s.mark ((t : ℤ) - 1) := by rw [hcl]; simp
  have hlow : ∀ x < N, x ∈ findIndices N s.mark ((t : ℤ) - 1) → (up O elen dfdx)^[t] m ≤ s.val x :=
    fun x hx hm => h.low x hx (mem_findIndices.1 hm).2
  have h0 : SInv O elen dfdx ftol ((up O elen dfdx)^[t] m) M nb N t (findIndices N s.mark ((t : ℤ) - 1)) c [] s := by
    refine ⟨fun b hb hp a ha _ => ?_, fun x hx hl => ?_, fun x hx hm => ?_, h.top, fun ⟨x, hx, hm⟩ => ?_⟩
    · refine h.ok b hb ?_ a ha
      intro e
      exact hp (Or.inl (mem_findIndices.2 ⟨hb, e⟩))
    · rcases hl with hl | rfl
      · exact hlow x hx hl
      · exact hlow x hx hcL
    · have := hall x; omega
    · have := hall x; omega
  obtain ⟨c', h1⟩ := SInv.sweep hO hst hft hnb hsym _ c s hmemL h0
  have hall' : ∀ x, (sweep O elen dfdx ftol nb t (findIndices N s.mark ((t : ℤ) - 1)) s).mark x < ((t + 1 : ℕ) : ℤ) := by
    refine sweep_ind (P := fun s' : St F => ∀ x, s'.mark x < ((t + 1 : ℕ) : ℤ)) ?_ s ?_
    · intro s' a _ b _ hs'
      exact relax_mark hs' (by push_cast; omega)
    · intro x; have := hall x; push_cast; omega
  have e1 : (((t + 1 : ℕ) : ℤ) - 1) = (t : ℤ) := by push_cast; ring
  have e2 : (up O elen dfdx)^[t + 1] m = up O elen dfdx ((up O elen dfdx)^[t] m) := Function.iterate_succ_apply' _ _ _
  refine ⟨⟨fun b hb hm a ha => ?_, fun x hx hm => ?_, fun x _ => hall' x, h1.top, fun ⟨x, hx, hm⟩ => ?_⟩, hall'⟩
  · rw [e1] at hm
    refine h1.ok b hb ?_ a ha (by simp)
    rintro (hp | hp)
    · simp at hp
    · exact hm hp
  · rw [e1] at hm; rw [e2]; exact h1.new x hx hm
  · rw [e1] at hm; right; rw [e2]; exact h1.wit ⟨x, hx, hm⟩

/-- If the loop uses up all its sweeps, the data range exceeds one step per sweep. -/
theorem loop_not_stopped {m elen dfdx ftol M : F} (hO : Rounded O) (hst : O.zero ≤ O.mul elen dfdx) (hft : O.zero ≤ ftol) {nb : ℕ → List ℕ} {N : ℕ}
    (hnb : NbIn nb N) (hsym : ∀ a < N, ∀ b ∈ nb a, a ∈ nb b) :
    ∀ (n t : ℕ) (s : St F), Before O m elen dfdx ftol M nb N t s → (∀ x, s.mark x < t) →
      (loop O elen dfdx ftol nb N (n + 1) t s).2 = false → t + n = 0 ∨ O.add ((up O elen dfdx)^[t + n] m) ftol < M
  | 0, t, s, h, _, hf => by
    unfold loop at hf
    simp only at hf
    split at hf
    · simp at hf
    · rename_i he
      have hne : findIndices N s.mark ((t : ℤ) - 1) ≠ [] := by simpa using he
      obtain ⟨c, l, hcl⟩ := List.exists_cons_of_ne_nil hne
      have hcL : c ∈ findIndices N s.mark ((t : ℤ) - 1) := by rw [hcl]; simp
      obtain ⟨hx, hm⟩ := mem_findIndices.1 hcL
      have := h.wit ⟨c, hx, hm⟩
      simpa using this
  | n + 1, t, s, h, hall, hf => by
    unfold loop at hf
    simp only at hf
    split at hf
    · simp at hf
    · rename_i he
      have hne : findIndices N s.mark ((t : ℤ) - 1) ≠ [] := by simpa using he
      obtain ⟨h', hall'⟩ := Before.step hO hst hft hnb hsym h hall hne
      have hf' : (loop O elen dfdx ftol nb N (n + 1) ((t + 1 : ℕ) : ℤ)
          (sweep O elen dfdx ftol nb t (findIndices N s.mark ((t : ℤ) - 1)) s)).2 = false := by
        rw [show ((t + 1 : ℕ) : ℤ) = (t : ℤ) + 1 by push_cast; ring]
        exact hf
      have := loop_not_stopped hO hst hft hnb hsym n (t + 1) _ h' hall' hf'
      rwa [show t + 1 + n = t + (n + 1) by omega] at this

/-! ### minimum, and the shape of a call -/

theorem minElement_le {N : ℕ} {f : ℕ → F} {i : ℕ} (hi : i < N) : minElement N f ≤ f i := by
  unfold minElement
  have key : ∀ (l : List ℕ) (m : F), l.foldl (fun m i => min m (f i)) m ≤ m ∧
      ∀ j ∈ l, l.foldl (fun m i => min m (f i)) m ≤ f j := by
    intro l
    induction l with
    | nil => intro m; simp
    | cons a l ih =>
      intro m
      simp only [List.foldl_cons]
      refine ⟨(ih _).1.trans (min_le_left _ _), ?_⟩
      intro j hj
      rcases List.mem_cons.1 hj with rfl | hj
      · exact (ih _).1.trans (min_le_right _ _)
      · exact (ih _).2 j hj
  exact (key _ _).2 i (by simpa using hi)

theorem exists_minElement {N : ℕ} (hN : 0 < N) (f : ℕ → F) : ∃ i < N, minElement N f = f i := by
  unfold minElement
  have key : ∀ (l : List ℕ) (x : F), (l.foldl (fun m i => min m (f i)) x = x) ∨
      ∃ j ∈ l, l.foldl (fun m i => min m (f i)) x = f j := by
    intro l
    induction l with
    | nil => intro x; simp
    | cons a l ih =>
      intro x
      simp only [List.foldl_cons]
      rcases ih (min x (f a)) with h | ⟨j, hj, h⟩
      · rcases min_choice x (f a) with h' | h'
        · left; rw [h, h']
        · right; exact ⟨a, by simp, by rw [h, h']⟩
      · right; exact ⟨j, List.mem_cons_of_mem _ hj, h⟩
  rcases key (List.range N) (f 0) with h | ⟨j, hj, h⟩
  · exact ⟨0, hN, h⟩
  · exact ⟨j, by simpa using hj, h⟩

theorem flat_min {d0 d1 d2 : ℕ} {A : ℕ → ℕ → ℕ → F} {m : F} (h : IsMin d0 d1 d2 A m) :
    minElement (d0 * d1 * d2) (flattenF d0 d1 A) = m := by
  obtain ⟨p, hp, hpm⟩ := h.2
  have hlt := lin_lt hp.1 hp.2.1 hp.2.2
  apply le_antisymm
  · have := minElement_le (f := flattenF d0 d1 A) hlt
    rw [flatten_lin hp.1 hp.2.1] at this
    rw [← hpm]; exact this
  · obtain ⟨n, hn, e⟩ := exists_minElement (Nat.zero_lt_of_lt hlt) (flattenF d0 d1 A)
    obtain ⟨i, j, k, hi, hj, hk, rfl⟩ := exists_lin hn
    rw [e, flatten_lin hi hj]
    exact h.1 (i, j, k) ⟨hi, hj, hk⟩

theorem enforce_ok {imax d0 d1 d2 : ℕ} {seps grade elen : F} {A R : ℕ → ℕ → ℕ → F} {c : Bool}
    (h : enforceGradation O imax d0 d1 d2 seps A grade elen = .ok (R, c)) :
    (grade = O.zero ∧ R = A ∧ c = true) ∨ (O.zero < grade ∧
      R = reshapeF d0 d1 (cLimgrad O d0 d1 d2 seps elen grade imax (flattenF d0 d1 A)).1 ∧
      c = (cLimgrad O d0 d1 d2 seps elen grade imax (flattenF d0 d1 A)).2) := by
  unfold enforceGradation at h
  split_ifs at h with h1 h2
  · simp only [Except.ok.injEq, Prod.mk.injEq] at h
    exact Or.inl ⟨h1, h.1.symm, h.2.symm⟩
  · simp only [Except.ok.injEq, Prod.mk.injEq] at h
    exact Or.inr ⟨lt_of_le_of_ne (not_lt.1 h2) (Ne.symm h1), h.1.symm, h.2.symm⟩

theorem flat_ge {d0 d1 d2 : ℕ} {A G : ℕ → ℕ → ℕ → F} (h : ∀ p, InGrid d0 d1 d2 p → at3 G p ≤ at3 A p) :
    ∀ n < d0 * d1 * d2, flattenF d0 d1 G n ≤ flattenF d0 d1 A n := by
  intro n hn
  obtain ⟨i, j, k, hi, hj, hk, rfl⟩ := exists_lin hn
  rw [flatten_lin hi hj, flatten_lin hi hj]
  exact h (i, j, k) ⟨hi, hj, hk⟩

/-- **C106 (only refines).** In any rounded arithmetic: every resulting size is at most the input size at the same node and
at least the smallest input size. -/
theorem C106_only_refines (hO : Rounded O) {imax d0 d1 d2 : ℕ} {seps grade elen m : F}
    {A R : ℕ → ℕ → ℕ → F} {c : Bool} (hs : O.zero ≤ seps) (he : O.zero ≤ elen) (hm : IsMin d0 d1 d2 A m)
    (hm0 : O.zero ≤ m) (h : enforceGradation O imax d0 d1 d2 seps A grade elen = .ok (R, c)) :
    ∀ p, InGrid d0 d1 d2 p → m ≤ at3 R p ∧ at3 R p ≤ at3 A p := by
  rintro ⟨i, j, k⟩ ⟨hi, hj, hk⟩
  rcases enforce_ok h with ⟨-, rfl, -⟩ | ⟨hg, rfl, -⟩
  · exact ⟨hm.1 _ ⟨hi, hj, hk⟩, le_rfl⟩
  · simp only at hi hj hk
    have hft : O.zero ≤ O.mul (minElement (d0 * d1 * d2) (flattenF d0 d1 A)) seps := by
      rw [flat_min hm]; exact hO.mul_nonneg _ _ hm0 hs
    have hst := hO.mul_nonneg _ _ he hg.le
    constructor
    · refine loop_ge hO (nbIn_nbrs d0 d1 d2) (fun _ => m) ?_ imax 0 _ ?_ _ (lin_lt hi hj hk)
      · intro a _ b _
        exact ⟨le_up hO hst m, le_up hO hst m⟩
      · intro n hn
        obtain ⟨i, j, k, hi, hj, hk, rfl⟩ := exists_lin hn
        simp only [flatten_lin hi hj]
        exact hm.1 (i, j, k) ⟨hi, hj, hk⟩
    · have := loop_le hO hft (elen := elen) (dfdx := grade) (nb := nbrs d0 d1 d2) (N := d0 * d1 * d2) imax 0
        { val := flattenF d0 d1 A, mark := fun _ => -1 } (lin d0 d1 i j k)
      simp only [flatten_lin hi hj] at this
      exact this

/-- **C106 (never over-refines).** Any field below the input whose neighbouring sizes obey the rounded gradation is below
the result. -/
theorem C106_never_over_refines (hO : Rounded O) {imax d0 d1 d2 : ℕ} {seps grade elen : F}
    {A R G : ℕ → ℕ → ℕ → F} {c : Bool} (he : O.zero ≤ elen)
    (h : enforceGradation O imax d0 d1 d2 seps A grade elen = .ok (R, c))
    (hGA : ∀ p, InGrid d0 d1 d2 p → at3 G p ≤ at3 A p)
    (hG : ∀ p q, InGrid d0 d1 d2 p → InGrid d0 d1 d2 q → Adjacent p q →
      at3 G p ≤ O.add (at3 G q) (O.mul elen grade)) :
    ∀ p, InGrid d0 d1 d2 p → at3 G p ≤ at3 R p := by
  rintro ⟨i, j, k⟩ hp
  rcases enforce_ok h with ⟨-, rfl, -⟩ | ⟨hg, rfl, -⟩
  · exact hGA _ hp
  · obtain ⟨hi, hj, hk⟩ := hp
    simp only at hi hj hk
    have hst := hO.mul_nonneg _ _ he hg.le
    have key := loop_ge hO (nbIn_nbrs d0 d1 d2) (flattenF d0 d1 G) (elen := elen) (dfdx := grade)
      (ftol := O.mul (minElement (d0 * d1 * d2) (flattenF d0 d1 A)) seps) ?_ imax 0
      { val := flattenF d0 d1 A, mark := fun _ => -1 } (flat_ge hGA) _ (lin_lt hi hj hk)
    · rw [flatten_lin hi hj] at key
      exact key
    · intro a ha b hb
      obtain ⟨i, j, k, hi, hj, hk, rfl⟩ := exists_lin ha
      obtain ⟨q, hq, rfl, rfl | hadj⟩ := nbrs_adjacent (p := (i, j, k)) ⟨hi, hj, hk⟩ hb
      · simp only [flatten_lin hi hj]
        exact ⟨le_up hO hst _, le_up hO hst _⟩
      · rw [flatten_lin hi hj, flatten_lin hq.1 hq.2.1]
        exact ⟨hG (i, j, k) q ⟨hi, hj, hk⟩ hq hadj, hG q (i, j, k) hq ⟨hi, hj, hk⟩ hadj.symm⟩

/-- **C106 (bound).** If the sweeps end because no node is active, no size exceeds a neighbouring size plus
`elen * grade` plus the tolerance, all computed in rounded arithmetic. -/
theorem C106_bound (hO : Rounded O) {imax d0 d1 d2 : ℕ} {seps grade elen m : F}
    {A R : ℕ → ℕ → ℕ → F} (hs : O.zero ≤ seps) (he : O.zero ≤ elen) (hm : IsMin d0 d1 d2 A m)
    (hm0 : O.zero ≤ m) (hg : grade ≠ O.zero)
    (h : enforceGradation O imax d0 d1 d2 seps A grade elen = .ok (R, true)) :
    ∀ p q, InGrid d0 d1 d2 p → InGrid d0 d1 d2 q → Adjacent p q →
      at3 R p ≤ O.add (O.add (at3 R q) (O.mul elen grade)) (O.mul m seps) := by
  rcases enforce_ok h with ⟨h0, -, -⟩ | ⟨hg, rfl, hc⟩
  · exact absurd h0 hg
  · have hft : O.zero ≤ O.mul (minElement (d0 * d1 * d2) (flattenF d0 d1 A)) seps := by
      rw [flat_min hm]; exact hO.mul_nonneg _ _ hm0 hs
    have key := loop_conv hO (hO.mul_nonneg _ _ he hg.le) hft (nbIn_nbrs d0 d1 d2) (nbrs_symm d0 d1 d2) imax 0
      { val := flattenF d0 d1 A, mark := fun _ => -1 } (by
        intro a _ b _ _; right; right; left; rfl) hc.symm
    rw [flat_min hm] at key
    intro p q hp hq hpq
    have := key _ (lin_lt hp.1 hp.2.1 hp.2.2) _ (adjacent_nbrs hp hq hpq)
    simp only [at3, reshape_lin, cLimgrad, flat_min hm]
    exact this

/-- **C106 (sweeps).** If the largest size is at most `m + step + ... + step + ftol` (rounded, `imax - 1` steps), the sweeps
end before the cap, and the bound holds. -/
theorem C106_sweeps (hO : Rounded O) {imax d0 d1 d2 : ℕ} {seps grade elen m M : F} {A : ℕ → ℕ → ℕ → F}
    (hs : O.zero ≤ seps) (he : O.zero ≤ elen) (hm : IsMin d0 d1 d2 A m) (hm0 : O.zero ≤ m) (hg : O.zero < grade) (hi : 2 ≤ imax)
    (hM : ∀ p, InGrid d0 d1 d2 p → at3 A p ≤ M)
    (hcap : M ≤ O.add ((fun x => O.add x (O.mul elen grade))^[imax - 1] m) (O.mul m seps)) :
    ∃ R, enforceGradation O imax d0 d1 d2 seps A grade elen = .ok (R, true) := by
  have hft : O.zero ≤ O.mul m seps := hO.mul_nonneg _ _ hm0 hs
  have hst : O.zero ≤ O.mul elen grade := hO.mul_nonneg _ _ he hg.le
  have hflag : (cLimgrad O d0 d1 d2 seps elen grade imax (flattenF d0 d1 A)).2 = true := by
    by_contra hcon
    have hf : (cLimgrad O d0 d1 d2 seps elen grade imax (flattenF d0 d1 A)).2 = false := by simpa using hcon
    unfold cLimgrad at hf
    simp only [flat_min hm] at hf
    obtain ⟨n, rfl⟩ : ∃ n, imax = n + 1 := ⟨imax - 1, by omega⟩
    have hv : ∀ x < d0 * d1 * d2, m ≤ flattenF d0 d1 A x ∧ flattenF d0 d1 A x ≤ M := by
      intro x hx
      obtain ⟨i, j, k, hi, hj, hk, rfl⟩ := exists_lin hx
      rw [flatten_lin hi hj]
      exact ⟨hm.1 (i, j, k) ⟨hi, hj, hk⟩, hM (i, j, k) ⟨hi, hj, hk⟩⟩
    have hb : Before O m elen grade (O.mul m seps) M (nbrs d0 d1 d2) (d0 * d1 * d2) 0
        { val := flattenF d0 d1 A, mark := fun _ => -1 } := by
      refine ⟨fun b _ hne => absurd (by simp) hne, fun x hx _ => (hv x hx).1, fun x _ => by simp,
        fun x hx => (hv x hx).2, fun _ => Or.inl rfl⟩
    have key := loop_not_stopped hO hst hft (nbIn_nbrs d0 d1 d2) (nbrs_symm d0 d1 d2) n 0 _ hb (by simp)
      (by simpa using hf)
    rw [Nat.zero_add] at key
    rcases key with h | h
    · omega
    · rw [Nat.add_sub_cancel] at hcap
      exact absurd hcap (not_le.2 h)
  refine ⟨reshapeF d0 d1 (cLimgrad O d0 d1 d2 seps elen grade imax (flattenF d0 d1 A)).1, ?_⟩
  unfold enforceGradation
  rw [if_neg hg.ne', if_neg (not_lt.2 hg.le)]
  simp only [hflag]

/-- **C106 (graded fields are kept).** A field that already obeys the rounded bound is returned unchanged. -/
theorem C106_identity {imax d0 d1 d2 : ℕ} {seps grade elen m : F} {A R : ℕ → ℕ → ℕ → F} {c : Bool} (hO : Rounded O)
    (hs : O.zero ≤ seps) (he : O.zero ≤ elen) (hm : IsMin d0 d1 d2 A m) (hm0 : O.zero ≤ m)
    (hA : ∀ p q, InGrid d0 d1 d2 p → InGrid d0 d1 d2 q → Adjacent p q →
      at3 A p ≤ O.add (O.add (at3 A q) (O.mul elen grade)) (O.mul m seps))
    (h : enforceGradation O imax d0 d1 d2 seps A grade elen = .ok (R, c)) :
    ∀ p, InGrid d0 d1 d2 p → at3 R p = at3 A p := by
  rintro ⟨i, j, k⟩ ⟨hi, hj, hk⟩
  rcases enforce_ok h with ⟨-, rfl, -⟩ | ⟨hg, rfl, -⟩
  · rfl
  · have hft : O.zero ≤ O.mul m seps := hO.mul_nonneg _ _ hm0 hs
    have hst : O.zero ≤ O.mul elen grade := hO.mul_nonneg _ _ he hg.le
    simp only at hi hj hk
    have hb : ∀ a < d0 * d1 * d2, ∀ b ∈ nbrs d0 d1 d2 a,
        flattenF d0 d1 A a ≤ thr O elen grade (O.mul m seps) (flattenF d0 d1 A b) ∧
        flattenF d0 d1 A b ≤ thr O elen grade (O.mul m seps) (flattenF d0 d1 A a) := by
      intro a ha b hb
      obtain ⟨i, j, k, hi, hj, hk, rfl⟩ := exists_lin ha
      obtain ⟨q, hq, rfl, rfl | hadj⟩ := nbrs_adjacent (p := (i, j, k)) ⟨hi, hj, hk⟩ hb
      · exact ⟨le_thr hO hst hft _, le_thr hO hst hft _⟩
      · rw [flatten_lin hi hj, flatten_lin hq.1 hq.2.1]
        exact ⟨hA (i, j, k) q ⟨hi, hj, hk⟩ hq hadj, hA q (i, j, k) hq ⟨hi, hj, hk⟩ hadj.symm⟩
    have key : (loop O elen grade (O.mul m seps) (nbrs d0 d1 d2) (d0 * d1 * d2) imax 0
        { val := flattenF d0 d1 A, mark := fun _ => -1 }).1.val = flattenF d0 d1 A := by
      refine loop_ind (P := fun s' : St F => s'.val = flattenF d0 d1 A) ?_ imax 0 _ rfl
      intro iter s a ha b hbm hs'
      rcases relax_cases (O := O) elen grade (O.mul m seps) iter s a b with ⟨h, -⟩ | ⟨hi, lo, hc, hgt, h⟩
      · rw [h]; exact hs'
      · exfalso
        rw [hs'] at hgt
        rcases hc with ⟨rfl, rfl⟩ | ⟨rfl, rfl⟩
        · exact absurd hgt (not_lt.2 (hb _ ha _ hbm).1)
        · exact absurd hgt (not_lt.2 (hb _ ha _ hbm).2)
    simp only [at3, reshape_lin, cLimgrad, flat_min hm, key, flatten_lin hi hj]

/-! ### roundings -/

section roundings

variable {K : Type} [Field K] [LinearOrder K] [IsStrictOrderedRing K]

/-- Exact arithmetic. -/
def exact : Arith K := ⟨0, (· + ·), (· * ·)⟩

theorem exact_rounded : Rounded (exact (K := K)) :=
  ⟨fun _ _ h => le_add_of_nonneg_right h, fun _ _ t h => add_le_add_left h t, fun _ _ h1 h2 => mul_nonneg h1 h2⟩

/-- With exact arithmetic this is the limiter of C01 to C06. -/
theorem C106_exact (imax d0 d1 d2 : ℕ) (seps : K) (A : ℕ → ℕ → ℕ → K) (grade elen : K) :
    enforceGradation exact imax d0 d1 d2 seps A grade elen = Limgrad.enforceGradation imax d0 d1 d2 seps A grade elen := by
  have hloop : ∀ (ftol : K) (nb : ℕ → List ℕ) (N n : ℕ) (iter : ℤ) (s : St K),
      loop exact elen grade ftol nb N n iter s = Limgrad.loop (elen * grade) ftol nb N n iter s := by
    intro ftol nb N n
    induction n with
    | zero => intro _ _; rfl
    | succ n ih =>
      intro iter s
      unfold loop Limgrad.loop
      simp only []
      split
      · rfl
      · rw [ih]; rfl
  unfold enforceGradation Limgrad.enforceGradation cLimgrad Limgrad.cLimgrad Limgrad.cLimgradOn
  simp only [hloop]
  rfl

/-- A rounding function: monotone, keeps what it returns, keeps 0. -/
structure Rounding (rnd : K → K) : Prop where
  mono : Monotone rnd
  idem : ∀ x, rnd (rnd x) = rnd x
  zero : rnd 0 = 0

/-- The representable numbers. -/
abbrev Repr (rnd : K → K) : Type := {x : K // rnd x = x}

/-- Rounded arithmetic on the representable numbers. -/
def arith {rnd : K → K} (h : Rounding rnd) : Arith (Repr rnd) where
  zero := ⟨0, h.zero⟩
  add x y := ⟨rnd (x.1 + y.1), h.idem _⟩
  mul x y := ⟨rnd (x.1 * y.1), h.idem _⟩

theorem arith_rounded {rnd : K → K} (h : Rounding rnd) : Rounded (arith h) where
  le_add x t ht := by
    have ht' : (0 : K) ≤ t.1 := ht
    show x.1 ≤ rnd (x.1 + t.1)
    calc x.1 = rnd x.1 := x.2.symm
      _ ≤ rnd (x.1 + t.1) := h.mono (le_add_of_nonneg_right ht')
  add_mono x y t hxy := h.mono (add_le_add_left (show x.1 ≤ y.1 from hxy) t.1)
  mul_nonneg x y hx hy := by
    have hx' : (0 : K) ≤ x.1 := hx
    have hy' : (0 : K) ≤ y.1 := hy
    show (0 : K) ≤ rnd (x.1 * y.1)
    calc (0 : K) = rnd 0 := h.zero.symm
      _ ≤ rnd (x.1 * y.1) := h.mono (mul_nonneg hx' hy')

theorem err_up {rnd : K → K} {u : K} (hu : ∀ x, |rnd x - x| ≤ u * |x|) {z : K} (hz : 0 ≤ z) : rnd z ≤ z * (1 + u) := by
  have := (abs_le.1 (hu z)).2
  rw [abs_of_nonneg hz] at this
  linarith

/-- **C106 (rounding error).** If each operation has relative error at most `u`, the result obeys the exact gradation
bound up to the factor `(1 + u)^3`. -/
theorem C106_error {rnd : K → K} (h : Rounding rnd) {u : K} (hu0 : 0 ≤ u) (hu : ∀ x, |rnd x - x| ≤ u * |x|)
    {imax d0 d1 d2 : ℕ} {seps grade elen m : Repr rnd} {A R : ℕ → ℕ → ℕ → Repr rnd} (hs : 0 ≤ seps.1) (he : 0 ≤ elen.1)
    (hm : IsMin d0 d1 d2 A m) (hm0 : 0 ≤ m.1) (hg : grade.1 ≠ 0)
    (hR : enforceGradation (arith h) imax d0 d1 d2 seps A grade elen = .ok (R, true)) :
    ∀ p q, InGrid d0 d1 d2 p → InGrid d0 d1 d2 q → Adjacent p q →
      (at3 R p).1 ≤ ((at3 R q).1 + elen.1 * grade.1 + m.1 * seps.1) * (1 + u) ^ 3 := by
  intro p q hp hq hpq
  have hO := arith_rounded h
  have hg' : grade ≠ (arith h).zero := fun e => hg (by rw [e]; rfl)
  have hb : (at3 R p).1 ≤ rnd (rnd ((at3 R q).1 + rnd (elen.1 * grade.1)) + rnd (m.1 * seps.1)) :=
    C106_bound hO (O := arith h) hs he hm hm0 hg' hR p q hp hq hpq
  have hq0 : 0 ≤ (at3 R q).1 :=
    hm0.trans (show m.1 ≤ (at3 R q).1 from (C106_only_refines hO (O := arith h) hs he hm hm0 hR q hq).1)
  have hgp : 0 ≤ grade.1 := by
    rcases enforce_ok hR with ⟨e, -⟩ | ⟨e, -⟩
    · exact absurd e hg'
    · exact le_of_lt (show (0 : K) < grade.1 from e)
  have heg : 0 ≤ elen.1 * grade.1 := mul_nonneg he hgp
  have hms : 0 ≤ m.1 * seps.1 := mul_nonneg hm0 hs
  have n1 : 0 ≤ rnd (elen.1 * grade.1) := by rw [← h.zero]; exact h.mono heg
  have n2 : 0 ≤ rnd (m.1 * seps.1) := by rw [← h.zero]; exact h.mono hms
  have n3 : 0 ≤ rnd ((at3 R q).1 + rnd (elen.1 * grade.1)) := by rw [← h.zero]; exact h.mono (add_nonneg hq0 n1)
  have e1 := err_up hu heg
  have e2 := err_up hu hms
  have e3 := err_up hu (add_nonneg hq0 n1)
  have e4 := err_up hu (add_nonneg n3 n2)
  generalize (at3 R q).1 = x at *
  generalize elen.1 * grade.1 = s at *
  generalize m.1 * seps.1 = t at *
  have h1u : 1 ≤ 1 + u := by linarith
  calc (at3 R p).1 ≤ (rnd (x + rnd s) + rnd t) * (1 + u) := hb.trans e4
    _ ≤ ((x + s * (1 + u)) * (1 + u) + t * (1 + u)) * (1 + u) := by
        apply mul_le_mul_of_nonneg_right _ (by linarith)
        exact add_le_add (e3.trans (mul_le_mul_of_nonneg_right (by linarith) (by linarith))) e2
    _ ≤ (x + s + t) * (1 + u) ^ 3 := by
        have f1 : 0 ≤ x * u := mul_nonneg hq0 hu0
        have f2 : 0 ≤ t * u := mul_nonneg hms hu0
        have : (x + s * (1 + u)) * (1 + u) + t * (1 + u) ≤ (x + s + t) * (1 + u) ^ 2 := by
          have f3 : 0 ≤ x * u * (1 + u) := mul_nonneg f1 (by linarith)
          have f4 : 0 ≤ t * u * (1 + u) := mul_nonneg f2 (by linarith)
          nlinarith
        calc _ ≤ (x + s + t) * (1 + u) ^ 2 * (1 + u) := mul_le_mul_of_nonneg_right this (by linarith)
          _ = _ := by ring

/-- Rounding to 53 significant bits is a rounding in this sense, with `u = 2^-53`. -/
theorem C106_binary64 : Rounding Fl.binary64 ∧ ∀ x, |Fl.binary64 x - x| ≤ 1 / 2 ^ 53 * |x| := by
  refine ⟨⟨Fl.binary64_mono, Fl.binary64_idem, Fl.binary64_zero⟩, fun x => ?_⟩
  have := Fl.binary64_error x
  norm_num at this ⊢
  exact this

/-- Small whole numbers as `double`s. -/
def ofNat64 (n : ℕ) (h0 : 1 ≤ n) (h : n < 9007199254740992) : Repr Fl.binary64 :=
  ⟨((n : ℤ) : ℚ), Fl.binary64_int (by omega) (by omega)⟩

/-- Three nodes in a row with sizes 1, 5, 9 in binary64 arithmetic: the hypotheses of the theorems above are met, and
the sweeps end. -/
example : ∃ R, enforceGradation (arith C106_binary64.1) 10 3 1 1 (ofNat64 1 (by norm_num) (by norm_num))
    (fun i _ _ => if i = 0 then ofNat64 1 (by norm_num) (by norm_num) else if i = 1 then ofNat64 5 (by norm_num) (by norm_num)
      else ofNat64 9 (by norm_num) (by norm_num)) (ofNat64 1 (by norm_num) (by norm_num)) (ofNat64 1 (by norm_num) (by norm_num)) =
      .ok (R, true) := by
  refine C106_sweeps (arith_rounded _) (m := ofNat64 1 (by norm_num) (by norm_num)) (M := ofNat64 9 (by norm_num) (by norm_num))
    (by decide +kernel) (by decide +kernel) ⟨?_, (0, 0, 0), ⟨by decide, by decide, by decide⟩, rfl⟩ (by decide +kernel) (by decide +kernel) (by norm_num) ?_
    (by decide +kernel)
  · rintro ⟨i, j, k⟩ -
    simp only [at3]
    split_ifs <;> decide +kernel
  · rintro ⟨i, j, k⟩ -
    simp only [at3]
    split_ifs <;> decide +kernel

end roundings

end SM.LimgradFl
