import Verif.Props.Cleanup
import Verif.Props.Laplace
import Mathlib.Tactic.Linarith

/-!
# C117: the final clean-up of a 2-D mesh with smoothing (the default)
-/

namespace SM.MeshLoop

open Np SM.Topology FixMesh Laplace

noncomputable section
variable {d : ℕ} {κ ρ : Type} [LinearOrder κ] [LinearOrder ρ]

open Classical in
/-- The triangles the clean-up keeps: all but the poor ones at the boundary. -/
def kept (qual : List (Fin 2 → ℝ) → ℝ) (p : List (Fin 2 → ℝ)) (t : List (List ℕ)) : List (List ℕ) :=
  t.filter fun r => decide (¬ Poor qual 2 p t 0.15 r)

/-- A vertex of one of the cells. -/
def Used (t : List (List ℕ)) (i : ℕ) : Prop := ∃ r ∈ t, i ∈ r

theorem mem_kept {qual : List (Fin 2 → ℝ) → ℝ} {p : List (Fin 2 → ℝ)} {t : List (List ℕ)} {r : List ℕ} :
    r ∈ kept qual p t ↔ r ∈ t ∧ ¬ Poor qual 2 p t 0.15 r := by
  simp [kept]

theorem delete_clean {P K : Type} [Field K] [LinearOrder K] [IsStrictOrderedRing K] {key : P → κ} {rk : List ℕ → ρ}
    (hrk : Function.Injective rk) {vol qual : List P → K} {srt : List (ℕ × ℕ) → List (ℕ × ℕ)} {p p' : List P} {t t' : List (List ℕ)} {dim : ℕ} {mq : K}
    (h : deleteBoundaryEntities key rk vol qual srt p t dim mq = .ok (p', t')) :
    p'.Nodup ∧ InRange p' t' ∧ (∀ i < p'.length, ∃ r ∈ t', i ∈ r) ∧ t'.Pairwise fun r s => ¬ r.Perm s := by
  unfold deleteBoundaryEntities at h
  simp only [bind, Except.bind, pure, Except.pure] at h
  split at h
  · simp at h
  split at h
  · simp at h
  split at h
  · simp at h
  split at h
  · simp at h
  rename_i x hx
  obtain ⟨a, b, c⟩ := x
  simp only [Except.ok.injEq, Prod.mk.injEq] at h
  obtain ⟨rfl, rfl⟩ := h
  obtain ⟨hp, ht⟩ := fixMesh_inRange hx
  obtain ⟨q1, u1, j1, e1, hin, hused, hrows, hkeys⟩ := C31_clean key hrk vol hp ht true
  rw [hx] at e1
  cases e1
  exact ⟨hkeys.imp fun hab e => hab (by rw [e]), hin, hused, hrows⟩

theorem simplices_same {k : ℕ} {P : Type} {p p' : List P} {t t' : List (List ℕ)} (hn : p.Nodup) (hr : InRange p t) (ht : Simplices k t)
    (h : ∀ r' ∈ t', ∃ r ∈ t, (posns p' r').Perm (posns p r)) : Simplices k t' := by
  intro r' hr'
  obtain ⟨r, hr0, hp⟩ := h r' hr'
  have hl : r'.length = r.length := by simpa [posns] using hp.length_eq
  refine ⟨by rw [hl, (ht r hr0).1], ?_⟩
  have : (posns p' r').Nodup := by
    refine hp.nodup_iff.2 ?_
    unfold posns
    refine (List.nodup_map_iff_inj_on (ht r hr0).2).2 fun i hi j hj e => ?_
    exact (List.getElem?_inj (hr r hr0 i hi) hn).1 e
  exact List.Nodup.of_map _ this

/-- The mesh after deletion has the kept cells. -/
theorem deleted_same {T : Tools 2 κ ρ} (henc : Function.Injective T.enc) (hrk : Function.Injective T.rk) (hsrt : IsArgsort T.srt)
    (hpt : 0 < T.ptol) (hqual : ∀ vs ws, vs.Perm ws → T.qual vs = T.qual ws)
    {p p2 p3 : List (Fin 2 → ℝ)} {t t2 t3 : List (List ℕ)} (hap : Apart T.ptol p) (hr : InRange p t) (ht : Simplices 3 t)
    (hd : t.Pairwise fun r s => ¬ r.Perm s) (h1 : fixed T p t = .ok (p2, t2))
    (h2 : deleteBoundaryEntities (keyOf T.enc T.ptol p2) T.rk T.vol T.qual T.srt p2 t2 2 0.15 = .ok (p3, t3)) :
    SameCells p (kept T.qual p t) p3 t3 ∧ (∀ x ∈ p3, x ∈ p) ∧ Simplices 3 t3 := by
  obtain ⟨hs1, hsub1, hn1, hin1, hus1, hd1⟩ := fixed_same henc hrk hpt hap (fun _ h => h) h1
  have hsub3 := delete_sub hrk h2
  have ht2 : Simplices 3 t2 := simplices_same hap.1 hr ht hs1.1
  have hp2 : p2 ≠ [] := by
    rintro rfl
    simp [deleteBoundaryEntities, fixMesh, bind, Except.bind, throw, throwThe, MonadExceptOf.throw] at h2
    split at h2
    · simp at h2
    split at h2
    · simp at h2
    split at h2 <;> simp at h2
  obtain ⟨q, u, e, hx1, hx2⟩ := C37_exact (keyOf T.enc T.ptol p2) hrk T.vol T.qual hsrt hp2 (Or.inl rfl) ht2
    (fun v => ⟨fun hv => hus1 v hv, fun ⟨r, hr, hv⟩ => hin1 r hr v hv⟩) (hap.key hpt henc hsub1) (0.15 : ℝ)
  rw [h2] at e
  cases e
  have hsame' : SameCells p2 t2 p t := by
    refine ⟨fun r hr0 => ?_, fun r' hr' => ?_⟩
    · obtain ⟨r', hr', hp⟩ := hs1.2 r hr0
      exact ⟨r', hr', hp.symm⟩
    · obtain ⟨r, hr0, hp⟩ := hs1.1 r' hr'
      exact ⟨r, hr0, hp.symm⟩
  have hfw : ∀ r3 ∈ t3, ∃ r ∈ kept T.qual p t, (posns p3 r3).Perm (posns p r) := by
    intro r3 hr3
    obtain ⟨r2, hr2, hnp, hp2'⟩ := hx1 r3 hr3
    obtain ⟨r, hr0, hp1⟩ := hs1.1 r2 hr2
    refine ⟨r, mem_kept.2 ⟨hr0, fun hpoor => hnp ?_⟩, (show (posns p3 r3).Perm (posns p2 r2) from hp2').trans hp1⟩
    exact poor_same hap.1 hn1 hr hin1 hd hd1 hs1 hqual hr2 hp1 hpoor
  refine ⟨⟨hfw, ?_⟩, fun x hx => hsub1 x (hsub3 x hx), ?_⟩
  · intro r hrk'
    obtain ⟨hr0, hnp⟩ := mem_kept.1 hrk'
    obtain ⟨r2, hr2, hp1⟩ := hs1.2 r hr0
    obtain ⟨r3, hr3, hp2'⟩ := hx2 r2 hr2 fun hpoor =>
      hnp (poor_same hn1 hap.1 hin1 hr hd1 hd hsame' hqual hr0 hp1.symm hpoor)
    exact ⟨r3, hr3, (show (posns p3 r3).Perm (posns p2 r2) from hp2').trans hp1⟩
  · exact simplices_same hap.1 hr ht fun r3 hr3 => by
      obtain ⟨r, hr0, hp⟩ := hfw r3 hr3
      exact ⟨r, (mem_kept.1 hr0).1, hp⟩

/-! ### Renumbering the smoothing equations -/

theorem shared_pos_of {t : List (List ℕ)} {a b : ℕ} (h : 0 < shared t a b) : Used t a ∧ Used t b := by
  obtain ⟨r, hr, hd⟩ := List.countP_pos_iff.1 h
  obtain ⟨h1, h2⟩ := of_decide_eq_true hd
  exact ⟨⟨r, hr, h1⟩, ⟨r, hr, h2⟩⟩

section renumber
variable {p q : List (Fin d → ℝ)} {t u : List (List ℕ)} {σ : ℕ → ℕ}

theorem shared_renumber (hp : p.Nodup) (hq : q.Nodup) (ht : InRange p t) (hu : InRange q u)
    (hdt : t.Pairwise fun r s => ¬ r.Perm s) (hdu : u.Pairwise fun r s => ¬ r.Perm s) (h : SameCells p t q u)
    (hσ : ∀ i < q.length, σ i < p.length ∧ p[σ i]? = q[i]?) {i j : ℕ} (hi : i < q.length) (hj : j < q.length) :
    shared u i j = shared t (σ i) (σ j) := by
  classical
  rw [shared_pos hq hu hi hj, shared_pos hp ht (hσ i hi).1 (hσ j hj).1, (hσ i hi).2, (hσ j hj).2]
  exact sharedPos_eq hp hq ht hu hdt hdu h _ _

/-- Every used vertex of the old mesh has a number in the new one. -/
theorem used_back (hp : p.Nodup) (ht : InRange p t) (hu : InRange q u) (h : SameCells p t q u)
    (hσ : ∀ i < q.length, σ i < p.length ∧ p[σ i]? = q[i]?) {i : ℕ} (hi : Used t i) : ∃ j < q.length, σ j = i := by
  obtain ⟨r, hr, hir⟩ := hi
  obtain ⟨r', hr', hperm⟩ := h.2 r hr
  have hm : p[i]? ∈ posns q r' := hperm.symm.subset (List.mem_map.2 ⟨i, hir, rfl⟩)
  obtain ⟨j, hj, e⟩ := List.mem_map.1 hm
  have hjq := hu r' hr' j hj
  refine ⟨j, hjq, ?_⟩
  exact (List.getElem?_inj (hσ j hjq).1 hp).1 ((hσ j hjq).2.trans e)

theorem boundary_renumber (hp : p.Nodup) (hq : q.Nodup) (ht : InRange p t) (hu : InRange q u)
    (hdt : t.Pairwise fun r s => ¬ r.Perm s) (hdu : u.Pairwise fun r s => ¬ r.Perm s) (h : SameCells p t q u)
    (hσ : ∀ i < q.length, σ i < p.length ∧ p[σ i]? = q[i]?) {i : ℕ} (hi : i < q.length) :
    OnBoundary2 u i ↔ OnBoundary2 t (σ i) := by
  have hinj : ∀ a < q.length, ∀ b < q.length, σ a = σ b → a = b := by
    intro a ha b hb e
    exact (List.getElem?_inj ha hq).1 (by rw [← (hσ a ha).2, ← (hσ b hb).2, e])
  constructor
  · rintro ⟨w, hw, hs⟩
    obtain ⟨r, hr, hwr⟩ := (shared_pos_of (by omega : 0 < shared u i w)).2
    have hwq := hu r hr w hwr
    exact ⟨σ w, fun e => hw (hinj w hwq i hi e), by rw [← shared_renumber hp hq ht hu hdt hdu h hσ hi hwq, hs]⟩
  · rintro ⟨w, hw, hs⟩
    obtain ⟨j, hj, rfl⟩ := used_back hp ht hu h hσ (shared_pos_of (by omega : 0 < shared t (σ i) w)).2
    exact ⟨j, fun e => hw (by rw [e]), by rw [shared_renumber hp hq ht hu hdt hdu h hσ hi hj, hs]⟩

theorem connected_renumber (hp : p.Nodup) (hq : q.Nodup) (ht : InRange p t) (hu : InRange q u)
    (hdt : t.Pairwise fun r s => ¬ r.Perm s) (hdu : u.Pairwise fun r s => ¬ r.Perm s) (h : SameCells p t q u)
    (hσ : ∀ i < q.length, σ i < p.length ∧ p[σ i]? = q[i]?) (hus : ∀ i < q.length, Used u i)
    (hc : ∀ i, Used t i → ∃ b, OnBoundary2 t b ∧ Relation.ReflTransGen (Adjacent t) i b) : BoundaryConnected q.length u := by
  intro i hi
  have hut : Used t (σ i) := by
    obtain ⟨r', hr', hir⟩ := hus i hi
    obtain ⟨r, hr, hperm⟩ := h.1 r' hr'
    have hm : q[i]? ∈ posns p r := hperm.subset (List.mem_map.2 ⟨i, hir, rfl⟩)
    obtain ⟨j, hj, e⟩ := List.mem_map.1 hm
    refine ⟨r, hr, ?_⟩
    have : σ i = j := (List.getElem?_inj (hσ i hi).1 hp).1 ((hσ i hi).2.trans e.symm)
    rwa [this]
  obtain ⟨b, hb, hpath⟩ := hc (σ i) hut
  have key : ∀ a, Relation.ReflTransGen (Adjacent t) a b → ∀ j < q.length, σ j = a →
      ∃ b', OnBoundary2 u b' ∧ Relation.ReflTransGen (Adjacent u) j b' := by
    intro a hab
    induction hab using Relation.ReflTransGen.head_induction_on with
    | refl =>
      intro j hj e
      subst e
      exact ⟨j, (boundary_renumber hp hq ht hu hdt hdu h hσ hj).2 hb, .refl⟩
    | head hac _ ih =>
      intro j hj e
      subst e
      obtain ⟨hne, hpos⟩ := hac
      obtain ⟨k, hk, rfl⟩ := used_back hp ht hu h hσ (shared_pos_of hpos).2
      obtain ⟨b', hb', hp'⟩ := ih k hk rfl
      refine ⟨b', hb', .head ⟨fun e => hne (by rw [e]), ?_⟩ hp'⟩
      rw [shared_renumber hp hq ht hu hdt hdu h hσ hj hk]
      exact hpos
  exact key _ hpath i hi rfl

/-- A solution in the new numbering is one in the old numbering. -/
theorem smooth_renumber (hp : p.Nodup) (hq : q.Nodup) (ht : InRange p t) (hu : InRange q u)
    (hdt : t.Pairwise fun r s => ¬ r.Perm s) (hdu : u.Pairwise fun r s => ¬ r.Perm s) (h : SameCells p t q u)
    (hσ : ∀ i < q.length, σ i < p.length ∧ p[σ i]? = q[i]?) {y : Fin q.length → Fin d → ℝ}
    (hy : Smooth u (fun i => q.get i) y) {x : ℕ → Fin d → ℝ} (hx : ∀ i (hi : i < q.length), x (σ i) = y ⟨i, hi⟩) :
    Smooth t (fun i : Fin p.length => p.get i) fun i : Fin p.length => x i := by
  have hinj : ∀ a < q.length, ∀ b < q.length, σ a = σ b → a = b := by
    intro a ha b hb e
    exact (List.getElem?_inj ha hq).1 (by rw [← (hσ a ha).2, ← (hσ b hb).2, e])
  constructor
  · intro i hi
    obtain ⟨w, hw, hs⟩ := id hi
    obtain ⟨j, hj, e⟩ := used_back hp ht hu h hσ (shared_pos_of (by omega : 0 < shared t i w)).1
    have hb : OnBoundary2 u j := (boundary_renumber hp hq ht hu hdt hdu h hσ hj).2 (by rw [e]; exact hi)
    have h1 := hy.boundary ⟨j, hj⟩ hb
    have h2 : p[(i : ℕ)]? = q[j]? := by rw [← (hσ j hj).2, e]
    rw [List.getElem?_eq_getElem i.2, List.getElem?_eq_getElem hj] at h2
    rw [← e, hx j hj, h1]
    simpa using (Option.some.inj h2).symm
  · intro i hi k
    by_cases hus : Used t i
    · obtain ⟨j, hj, e⟩ := used_back hp ht hu h hσ hus
      have hb : ¬ OnBoundary2 u j := fun hb => hi (by rw [← e]; exact (boundary_renumber hp hq ht hu hdt hdu h hσ hj).1 hb)
      have h1 := hy.interior ⟨j, hj⟩ hb k
      rw [← h1]
      symm
      let f : Fin q.length → Fin p.length := fun a => ⟨σ a, (hσ a a.2).1⟩
      have hf : Function.Injective f := by
        intro a b hab
        exact Fin.ext (hinj a a.2 b b.2 (Fin.mk.inj hab))
      have hfj : f ⟨j, hj⟩ = i := Fin.ext e
      rw [← Finset.sum_subset (s₁ := (Finset.univ.erase (⟨j, hj⟩ : Fin q.length)).map ⟨f, hf⟩)]
      · rw [Finset.sum_map]
        refine Finset.sum_congr rfl fun a _ => ?_
        simp only [Function.Embedding.coeFn_mk]
        rw [shared_renumber hp hq ht hu hdt hdu h hσ hj a.2, e]
        have e1 := hx j hj
        have e2 := hx a a.2
        rw [e] at e1
        simp only [f, e1, e2]
      · intro b hb
        obtain ⟨a, ha, rfl⟩ := Finset.mem_map.1 hb
        refine Finset.mem_erase.2 ⟨fun hab => ?_, Finset.mem_univ _⟩
        rw [← hfj] at hab
        exact (Finset.mem_erase.1 ha).1 (hf hab)
      · intro b hb hnb
        have h0 : shared t i b = 0 := by
          by_contra hpos
          obtain ⟨a, ha, e'⟩ := used_back hp ht hu h hσ (shared_pos_of (Nat.pos_of_ne_zero hpos)).2
          refine hnb (Finset.mem_map.2 ⟨⟨a, ha⟩, Finset.mem_erase.2 ⟨fun hab => ?_, Finset.mem_univ _⟩, Fin.ext e'⟩)
          have : b = i := by
            apply Fin.ext
            rw [← e', ← e]
            exact congrArg σ (Fin.mk.inj hab)
          exact (Finset.mem_erase.1 hb).1 this
        rw [h0]
        simp
    · refine Finset.sum_eq_zero fun b _ => ?_
      have h0 : shared t i b = 0 := by
        by_contra hpos
        exact hus (shared_pos_of (Nat.pos_of_ne_zero hpos)).1
      rw [h0]
      simp

/-- A solution in the old numbering is one in the new numbering. -/
theorem smooth_back (hp : p.Nodup) (hq : q.Nodup) (ht : InRange p t) (hu : InRange q u)
    (hdt : t.Pairwise fun r s => ¬ r.Perm s) (hdu : u.Pairwise fun r s => ¬ r.Perm s) (h : SameCells p t q u)
    (hσ : ∀ i < q.length, σ i < p.length ∧ p[σ i]? = q[i]?) {x : ℕ → Fin d → ℝ}
    (hx : Smooth t (fun i : Fin p.length => p.get i) fun i : Fin p.length => x i) :
    Smooth u (fun i => q.get i) fun i : Fin q.length => x (σ i) := by
  have hinj : ∀ a < q.length, ∀ b < q.length, σ a = σ b → a = b := by
    intro a ha b hb e
    exact (List.getElem?_inj ha hq).1 (by rw [← (hσ a ha).2, ← (hσ b hb).2, e])
  constructor
  · intro i hi
    have h1 := hx.boundary ⟨σ i, (hσ i i.2).1⟩ ((boundary_renumber hp hq ht hu hdt hdu h hσ i.2).1 hi)
    have h2 : some (p[σ i]'(hσ i i.2).1) = some q[(i : ℕ)] := by
      rw [← List.getElem?_eq_getElem (hσ i i.2).1, ← List.getElem?_eq_getElem i.2]
      exact (hσ i i.2).2
    simp only at h1
    rw [h1]
    simpa using Option.some.inj h2
  · intro i hi k
    have h1 := hx.interior ⟨σ i, (hσ i i.2).1⟩ (fun hb => hi ((boundary_renumber hp hq ht hu hdt hdu h hσ i.2).2 hb)) k
    rw [← h1]
    let f : Fin q.length → Fin p.length := fun a => ⟨σ a, (hσ a a.2).1⟩
    have hf : Function.Injective f := by
      intro a b hab
      exact Fin.ext (hinj a a.2 b b.2 (Fin.mk.inj hab))
    rw [← Finset.sum_subset (s₁ := (Finset.univ.erase i).map ⟨f, hf⟩)]
    · rw [Finset.sum_map]
      refine Finset.sum_congr rfl fun a _ => ?_
      simp only [Function.Embedding.coeFn_mk]
      rw [shared_renumber hp hq ht hu hdt hdu h hσ i.2 a.2]
    · intro b hb
      obtain ⟨a, ha, rfl⟩ := Finset.mem_map.1 hb
      exact Finset.mem_erase.2 ⟨fun hab => (Finset.mem_erase.1 ha).1 (hf hab), Finset.mem_univ _⟩
    · intro b hb hnb
      have h0 : shared t (σ i) b = 0 := by
        by_contra hpos
        obtain ⟨a, ha, e'⟩ := used_back hp ht hu h hσ (shared_pos_of (Nat.pos_of_ne_zero hpos)).2
        refine hnb (Finset.mem_map.2 ⟨⟨a, ha⟩, Finset.mem_erase.2 ⟨fun hab => ?_, Finset.mem_univ _⟩, Fin.ext e'⟩)
        subst hab
        exact (Finset.mem_erase.1 hb).1 (Fin.ext e'.symm)
      simp only [h0]
      simp

theorem cells_renumber (hp : p.Nodup) (ht : InRange p t) (hu : InRange q u)
    (hσ : ∀ i < q.length, σ i < p.length ∧ p[σ i]? = q[i]?) {r s : List ℕ} (hr : r ∈ t) (hs : s ∈ u)
    (h : (posns q s).Perm (posns p r)) (x : ℕ → Fin d → ℝ) : (s.map fun i => some (x (σ i))).Perm (r.map fun i => some (x i)) := by
  have e : posns q s = posns p (s.map σ) := by
    unfold posns
    rw [List.map_map]
    exact List.map_congr_left fun i hi => ((hσ i (hu s hs i hi)).2).symm
  rw [e] at h
  have := posns_perm hp (fun i hi => by
    obtain ⟨j, hj, rfl⟩ := List.mem_map.1 hi
    exact (hσ j (hu s hs j hj)).1) (ht r hr) h
  have := this.map fun i => some (x i)
  rwa [List.map_map] at this

end renumber

theorem exists_numbers {p q : List (Fin d → ℝ)} (h : ∀ x ∈ q, x ∈ p) :
    ∃ σ : ℕ → ℕ, ∀ i < q.length, σ i < p.length ∧ p[σ i]? = q[i]? := by
  classical
  refine ⟨fun i => if hi : i < q.length then p.idxOf q[i] else 0, fun i hi => ?_⟩
  have hm := h q[i] (List.getElem_mem hi)
  have hl := List.idxOf_lt_length_iff.2 hm
  simp only [hi, dif_pos]
  refine ⟨hl, ?_⟩
  rw [List.getElem?_eq_getElem hl, List.getElem?_eq_getElem hi, List.getElem_idxOf hl]

/-- The vertices of the cells of `t`, placed at `x`, are so far apart that `fix_mesh` does not merge any: more than `ptol` times their extent, in
some coordinate. -/
def Spread (ptol : ℝ) (t : List (List ℕ)) (x : ℕ → Fin d → ℝ) : Prop :=
  ∃ L, (∀ i j, Used t i → Used t j → ∀ k, |x i k - x j k| ≤ L) ∧ ∀ i j, Used t i → Used t j → i ≠ j → ∃ k, ptol * L < |x i k - x j k|

/-- Every vertex of the cells is connected to the boundary along edges. -/
def Moored (t : List (List ℕ)) : Prop := ∀ i, Used t i → ∃ b, OnBoundary2 t b ∧ Relation.ReflTransGen (Adjacent t) i b

theorem termination_smooth {T : Tools 2 κ ρ} {o : TermOpts} (hs1 : o.subdomainsNone = true) (hs2 : o.meshImprovement = true) (hchk : o.performChecks = false)
    {p p' : List (Fin 2 → ℝ)} {t t' : List (List ℕ)} (h : termination T 0 1 false o p t = .ok (p', t')) :
    ∃ p2 t2 p3 t3 A b, fixed T p t = .ok (p2, t2) ∧
      deleteBoundaryEntities (keyOf T.enc T.ptol p2) T.rk T.vol T.qual T.srt p2 t2 2 0.15 = .ok (p3, t3) ∧
      assemble T.rk (fun i : Fin p3.length => p3.get i) t3 = .ok (A, b) ∧ fixed T (List.ofFn fun i => T.solve p3.length A b i) t3 = .ok (p', t') := by
  unfold termination at h
  have hc2 : (cleanup2 T o p t >>= fun x => fixed T x.1 x.2) = .ok (p', t') := by
    simpa [hchk, bind, Except.bind, pure, Except.pure] using h
  unfold cleanup2 at hc2
  simp only [hs1, hs2, Bool.and_self, if_true, bind, Except.bind] at hc2
  cases h1 : fixed T p t with
  | error e => simp [h1] at hc2
  | ok x =>
    obtain ⟨p2, t2⟩ := x
    simp only [h1] at hc2
    cases h2 : deleteBoundaryEntities (keyOf T.enc T.ptol p2) T.rk T.vol T.qual T.srt p2 t2 2 0.15 with
    | error e => simp [h2] at hc2
    | ok x =>
      obtain ⟨p3, t3⟩ := x
      simp only [h2, laplacianFixed, bind, Except.bind, pure, Except.pure] at hc2
      cases h3 : assemble T.rk (fun i : Fin p3.length => p3.get i) t3 with
      | error e => rw [h3] at hc2; simp at hc2
      | ok x =>
        obtain ⟨A, b⟩ := x
        rw [h3] at hc2
        exact ⟨p2, t2, p3, t3, A, b, rfl, h2, h3, hc2⟩

/-- **C117 (the clean-up with smoothing).** With the default options the final clean-up of a 2-D mesh keeps exactly the triangles that do not touch
the boundary or have quality at least 0.15, and it moves their vertices to the solution `x` of the smoothing equations of the kept mesh: a vertex on
its boundary stays, every other vertex is the average of its neighbours. -/
theorem C117_termination {T : Tools 2 κ ρ} (henc : Function.Injective T.enc) (hrk : Function.Injective T.rk) (hsrt : IsArgsort T.srt)
    (hpt : 0 < T.ptol) (hqual : ∀ vs ws, vs.Perm ws → T.qual vs = T.qual ws)
    (hsolve : ∀ n A b, (∃ y, A * y = b) → A * T.solve n A b = b) {o : TermOpts}
    (hs1 : o.subdomainsNone = true) (hs2 : o.meshImprovement = true) (hchk : o.performChecks = false)
    {p p' : List (Fin 2 → ℝ)} {t t' : List (List ℕ)} (hap : Apart T.ptol p) (hr : InRange p t) (ht : Simplices 3 t)
    (hd : t.Pairwise fun r s => ¬ r.Perm s) (hm : Moored (kept T.qual p t)) {x : ℕ → Fin 2 → ℝ}
    (hx : Smooth (kept T.qual p t) (fun i : Fin p.length => p.get i) fun i : Fin p.length => x i) (hsp : Spread T.ptol (kept T.qual p t) x)
    (h : termination T 0 1 false o p t = .ok (p', t')) :
    (∀ r' ∈ t', ∃ r ∈ t, ¬ Poor T.qual 2 p t 0.15 r ∧ (posns p' r').Perm (r.map fun i => some (x i))) ∧
      ∀ r ∈ t, ¬ Poor T.qual 2 p t 0.15 r → ∃ r' ∈ t', (posns p' r').Perm (r.map fun i => some (x i)) := by
  obtain ⟨p2, t2, p3, t3, A, b, h1, h2, h3, h4⟩ := termination_smooth hs1 hs2 hchk h
  obtain ⟨hsame, hsub, hs3⟩ := deleted_same henc hrk hsrt hpt hqual hap hr ht hd h1 h2
  obtain ⟨hn3, hin3, hus3, hd3⟩ := delete_clean hrk h2
  obtain ⟨σ, hσ⟩ := exists_numbers hsub
  have hkr : InRange p (kept T.qual p t) := fun r hr0 => hr r (mem_kept.1 hr0).1
  have hkd : (kept T.qual p t).Pairwise fun r s => ¬ r.Perm s := hd.sublist List.filter_sublist
  have hbc : BoundaryConnected p3.length t3 := connected_renumber hap.1 hn3 hkr hin3 hkd hd3 hsame hσ hus3 hm
  have hx3 := smooth_back hap.1 hn3 hkr hin3 hkd hd3 hsame hσ hx
  obtain ⟨A', b', e, hiff⟩ := C41_system hrk hs3 hin3 (fun i : Fin p3.length => p3.get i)
  rw [h3] at e
  cases e
  obtain ⟨A', b', e, hun⟩ := C41_unique hrk hs3 hin3 hbc (fun i : Fin p3.length => p3.get i)
  rw [h3] at e
  cases e
  have hsol : A * (Matrix.of fun i : Fin p3.length => x (σ i)) = b := (hiff _).2 hx3
  have hX : T.solve p3.length A b = Matrix.of fun i : Fin p3.length => x (σ i) := hun.unique (hsolve _ _ _ ⟨_, hsol⟩) hsol
  rw [hX] at h4
  have hget : ∀ i (hi : i < p3.length), (List.ofFn fun i : Fin p3.length => (Matrix.of fun i : Fin p3.length => x (σ i)) i)[i]? = some (x (σ i)) := by
    intro i hi
    rw [List.getElem?_ofFn, dif_pos hi]
    rfl
  have hused : ∀ i < p3.length, Used (kept T.qual p t) (σ i) := by
    intro i hi
    obtain ⟨r', hr', hir⟩ := hus3 i hi
    obtain ⟨r, hr0, hperm⟩ := hsame.1 r' hr'
    have hm : p3[i]? ∈ posns p r := hperm.subset (List.mem_map.2 ⟨i, hir, rfl⟩)
    obtain ⟨j, hj, e⟩ := List.mem_map.1 hm
    refine ⟨r, hr0, ?_⟩
    have : σ i = j := (List.getElem?_inj (hσ i hi).1 hap.1).1 ((hσ i hi).2.trans e.symm)
    rwa [this]
  have hinj : ∀ a < p3.length, ∀ b < p3.length, σ a = σ b → a = b := by
    intro a ha b hb e
    exact (List.getElem?_inj ha hn3).1 (by rw [← (hσ a ha).2, ← (hσ b hb).2, e])
  obtain ⟨L, hL, hsep⟩ := hsp
  have hap4 : Apart T.ptol (List.ofFn fun i : Fin p3.length => (Matrix.of fun i : Fin p3.length => x (σ i)) i) := by
    refine ⟨?_, L, ?_, ?_⟩
    · rw [List.nodup_ofFn]
      intro a c hac
      by_contra hne
      obtain ⟨k, hk⟩ := hsep (σ a) (σ c) (hused a a.2) (hused c c.2) fun e => hne (Fin.ext (hinj a a.2 c c.2 e))
      have h0 : x (σ a) k - x (σ c) k = 0 := by
        have := congrFun hac k
        simpa [sub_eq_zero] using this
      have hL0 : 0 ≤ L := (abs_nonneg _).trans (hL (σ a) (σ c) (hused a a.2) (hused c c.2) k)
      rw [h0, abs_zero] at hk
      linarith [mul_nonneg hpt.le hL0]
    · intro u hu v hv k
      obtain ⟨a, rfl⟩ := (List.mem_ofFn' _ _).1 hu
      obtain ⟨c, rfl⟩ := (List.mem_ofFn' _ _).1 hv
      exact hL _ _ (hused a a.2) (hused c c.2) k
    · intro u hu v hv hne
      obtain ⟨a, rfl⟩ := (List.mem_ofFn' _ _).1 hu
      obtain ⟨c, rfl⟩ := (List.mem_ofFn' _ _).1 hv
      exact hsep _ _ (hused a a.2) (hused c c.2) fun e => hne (show x (σ a) = x (σ c) by rw [e])
  obtain ⟨hf1, hf2⟩ := (fixed_same henc hrk hpt hap4 (fun _ h => h) h4).1
  have hpos : ∀ r3 ∈ t3, posns (List.ofFn fun i : Fin p3.length => (Matrix.of fun i : Fin p3.length => x (σ i)) i) r3 = r3.map fun i => some (x (σ i)) :=
    fun r3 hr3 => List.map_congr_left fun i hi => hget i (hin3 r3 hr3 i hi)
  constructor
  · intro r' hr'
    obtain ⟨r3, hr3, hp3⟩ := hf1 r' hr'
    obtain ⟨r, hr0, hperm⟩ := hsame.1 r3 hr3
    rw [hpos r3 hr3] at hp3
    exact ⟨r, (mem_kept.1 hr0).1, (mem_kept.1 hr0).2, hp3.trans (cells_renumber hap.1 hkr hin3 hσ hr0 hr3 hperm x)⟩
  · intro r hr0 hnp
    have hrk0 := mem_kept.2 ⟨hr0, hnp⟩
    obtain ⟨r3, hr3, hperm⟩ := hsame.2 r hrk0
    obtain ⟨r', hr', hp3⟩ := hf2 r3 hr3
    rw [hpos r3 hr3] at hp3
    exact ⟨r', hr', hp3.trans (cells_renumber hap.1 hkr hin3 hσ hrk0 hr3 hperm x)⟩

theorem termination_plain {T : Tools 2 κ ρ} {o : TermOpts} (hs1 : o.subdomainsNone = false) (hchk : o.performChecks = false)
    {p p' : List (Fin 2 → ℝ)} {t t' : List (List ℕ)} (h : termination T 0 1 false o p t = .ok (p', t')) :
    ∃ p2 t2 p3 t3, fixed T p t = .ok (p2, t2) ∧
      deleteBoundaryEntities (keyOf T.enc T.ptol p2) T.rk T.vol T.qual T.srt p2 t2 2 0.15 = .ok (p3, t3) ∧ fixed T p3 t3 = .ok (p', t') := by
  unfold termination at h
  have hc2 : (cleanup2 T o p t >>= fun x => fixed T x.1 x.2) = .ok (p', t') := by
    simpa [hchk, bind, Except.bind, pure, Except.pure] using h
  unfold cleanup2 at hc2
  simp only [hs1, Bool.false_and, Bool.false_eq_true, if_false, bind, Except.bind, pure, Except.pure] at hc2
  cases h1 : fixed T p t with
  | error e => simp [h1] at hc2
  | ok x =>
    obtain ⟨p2, t2⟩ := x
    simp only [h1] at hc2
    cases h2 : deleteBoundaryEntities (keyOf T.enc T.ptol p2) T.rk T.vol T.qual T.srt p2 t2 2 0.15 with
    | error e => simp [h2] at hc2
    | ok x =>
      obtain ⟨p3, t3⟩ := x
      simp only [h2] at hc2
      exact ⟨p2, t2, p3, t3, rfl, h2, hc2⟩

/-- **C117 (the target exists and is unique).** If some triangle is kept and the kept mesh is connected to its boundary, the smoothing equations
have a solution, and it is unique at the vertices of the kept triangles. -/
theorem C117_target {T : Tools 2 κ ρ} (henc : Function.Injective T.enc) (hrk : Function.Injective T.rk) (hsrt : IsArgsort T.srt)
    (hpt : 0 < T.ptol) (hqual : ∀ vs ws, vs.Perm ws → T.qual vs = T.qual ws)
    {p : List (Fin 2 → ℝ)} {t : List (List ℕ)} (hap : Apart T.ptol p) (hr : InRange p t) (ht : Simplices 3 t)
    (hd : t.Pairwise fun r s => ¬ r.Perm s) (hm : Moored (kept T.qual p t)) {r₀ : List ℕ} (hr₀ : r₀ ∈ t) (hgood : ¬ Poor T.qual 2 p t 0.15 r₀) :
    ∃ x : ℕ → Fin 2 → ℝ, Smooth (kept T.qual p t) (fun i : Fin p.length => p.get i) (fun i : Fin p.length => x i) ∧
      ∀ y : ℕ → Fin 2 → ℝ, Smooth (kept T.qual p t) (fun i : Fin p.length => p.get i) (fun i : Fin p.length => y i) →
        ∀ i, Used (kept T.qual p t) i → y i = x i := by
  classical
  obtain ⟨p', t', h⟩ := C116_succeeds (o := ⟨false, false, false⟩) henc hrk hsrt hpt hqual (Or.inl rfl) rfl hap hr ht hd hr₀ hgood
  obtain ⟨p2, t2, p3, t3, h1, h2, -⟩ := termination_plain rfl rfl h
  obtain ⟨hsame, hsub, hs3⟩ := deleted_same henc hrk hsrt hpt hqual hap hr ht hd h1 h2
  obtain ⟨hn3, hin3, hus3, hd3⟩ := delete_clean hrk h2
  obtain ⟨σ, hσ⟩ := exists_numbers hsub
  have hkr : InRange p (kept T.qual p t) := fun r hr0 => hr r (mem_kept.1 hr0).1
  have hkd : (kept T.qual p t).Pairwise fun r s => ¬ r.Perm s := hd.sublist List.filter_sublist
  have hbc : BoundaryConnected p3.length t3 := connected_renumber hap.1 hn3 hkr hin3 hkd hd3 hsame hσ hus3 hm
  obtain ⟨A, b, h3, hiff⟩ := C41_system hrk hs3 hin3 (fun i : Fin p3.length => p3.get i)
  obtain ⟨A', b', e, y, hy, huniq⟩ := C41_unique hrk hs3 hin3 hbc (fun i : Fin p3.length => p3.get i)
  rw [h3] at e
  cases e
  have hinj : ∀ a < p3.length, ∀ b < p3.length, σ a = σ b → a = b := by
    intro a ha b hb e
    exact (List.getElem?_inj ha hn3).1 (by rw [← (hσ a ha).2, ← (hσ b hb).2, e])
  let x : ℕ → Fin 2 → ℝ := fun i => if h : ∃ j, ∃ hj : j < p3.length, σ j = i then y ⟨h.choose, h.choose_spec.choose⟩ else 0
  have hxσ : ∀ j (hj : j < p3.length), x (σ j) = y ⟨j, hj⟩ := by
    intro j hj
    have hex : ∃ k, ∃ hk : k < p3.length, σ k = σ j := ⟨j, hj, rfl⟩
    have he : hex.choose = j := hinj _ hex.choose_spec.choose _ hj hex.choose_spec.choose_spec
    simp only [x, dif_pos hex]
    congr 1
    exact Fin.ext he
  refine ⟨x, smooth_renumber hap.1 hn3 hkr hin3 hkd hd3 hsame hσ ((hiff y).1 hy) hxσ, fun z hz i hi => ?_⟩
  obtain ⟨j, hj, rfl⟩ := used_back hap.1 hkr hin3 hsame hσ hi
  have hz3 := smooth_back hap.1 hn3 hkr hin3 hkd hd3 hsame hσ hz
  have := huniq (Matrix.of fun i : Fin p3.length => z (σ i)) ((hiff _).2 hz3)
  rw [hxσ j hj, ← this]
  rfl

/-- **C117 (no exception).** If some triangle is kept, the clean-up with smoothing returns a mesh. -/
theorem C117_succeeds {T : Tools 2 κ ρ} (henc : Function.Injective T.enc) (hrk : Function.Injective T.rk) (hsrt : IsArgsort T.srt)
    (hpt : 0 < T.ptol) (hqual : ∀ vs ws, vs.Perm ws → T.qual vs = T.qual ws) {o : TermOpts}
    (hs1 : o.subdomainsNone = true) (hs2 : o.meshImprovement = true) (hchk : o.performChecks = false)
    {p : List (Fin 2 → ℝ)} {t : List (List ℕ)} (hap : Apart T.ptol p) (hr : InRange p t) (ht : Simplices 3 t)
    (hd : t.Pairwise fun r s => ¬ r.Perm s) {r₀ : List ℕ} (hr₀ : r₀ ∈ t) (hgood : ¬ Poor T.qual 2 p t 0.15 r₀) :
    ∃ p' t', termination T 0 1 false o p t = .ok (p', t') := by
  obtain ⟨p', t', h⟩ := C116_succeeds (o := ⟨false, false, false⟩) henc hrk hsrt hpt hqual (Or.inl rfl) rfl hap hr ht hd hr₀ hgood
  obtain ⟨p2, t2, p3, t3, h1, h2, h5⟩ := termination_plain rfl rfl h
  obtain ⟨-, -, hs3⟩ := deleted_same henc hrk hsrt hpt hqual hap hr ht hd h1 h2
  obtain ⟨-, hin3, -, -⟩ := delete_clean hrk h2
  have hp3 : p3 ≠ [] := by
    rintro rfl
    simp [fixed, fixMeshK, bind, Except.bind] at h5
  obtain ⟨A, b, h3, -⟩ := C41_system hrk hs3 hin3 (fun i : Fin p3.length => p3.get i)
  have hne : (List.ofFn fun i => T.solve p3.length A b i) ≠ [] := by
    intro e
    have := congrArg List.length e
    simp only [List.length_ofFn, List.length_nil] at this
    exact hp3 (List.length_eq_zero_iff.1 this)
  obtain ⟨q, u, h4⟩ := fixed_succeeds (T := T) hrk hne (t := t3) (by intro r hr0 i hi; rw [List.length_ofFn]; exact hin3 r hr0 i hi)
  refine ⟨q, u, ?_⟩
  have hl : laplacianFixed T p3 t3 = .ok (List.ofFn fun i => T.solve p3.length A b i, t3) := by
    unfold laplacianFixed
    rw [h3]
    rfl
  have hc : cleanup2 T o p t = .ok (List.ofFn fun i => T.solve p3.length A b i, t3) := by
    unfold cleanup2
    simp only [h1, h2, hs1, hs2, Bool.and_self, if_true, bind, Except.bind, hl]
  unfold termination
  simp [hc, hchk, h4, bind, Except.bind, pure, Except.pure]

/-- **C117 (a 2-D run with the default clean-up).** As C116_run: `inside` are the triangles of the last triangulation with centroid inside; `clean`
are the kept ones among them, with their vertices moved to the solution `x` of the smoothing equations; the returned triangles are those of `clean`
whose centroid is inside after the boundary vertices have been moved to the level set. -/
theorem C117_run {E : Env 2 κ ρ} (hser : E.size = 1) (hrank : E.rank = 0) (henc : Function.Injective E.tools.enc)
    (hrk : Function.Injective E.tools.rk) (hsrt : IsArgsort E.tools.srt) (hpt : 0 < E.tools.ptol)
    (hqual : ∀ vs ws, vs.Perm ws → E.tools.qual vs = E.tools.qual ws)
    (hsolve : ∀ n A b, (∃ y, A * y = b) → A * E.tools.solve n A b = b)
    (hs1 : E.opts.subdomainsNone = true) (hs2 : E.opts.meshImprovement = true) (hchk : E.opts.performChecks = false)
    (hdt : ∀ q, InRange (E.dt q).1 (E.dt q).2 ∧ Simplices 3 (E.dt q).2 ∧ (E.dt q).2.Pairwise fun r s => ¬ r.Perm s)
    {n : ℕ} {p0 p : List (Fin 2 → ℝ)} {t : List (List ℕ)} {k : ℕ}
    (hap : ∀ m s, run E m (start p0) = .running s → Apart E.tools.ptol (E.dt s.p).1) (h : run E n (start p0) = .done p t k) :
    ∃ (m : ℕ) (s : State 2) (inside : List (List ℕ)) (pc : List (Fin 2 → ℝ)) (clean : List (List ℕ)), run E m (start p0) = .running s ∧
      (∀ r, r ∈ inside ↔ r ∈ (E.dt s.p).2 ∧ ∃ vs, take (E.dt s.p).1 r = .ok vs ∧
        E.fd (fun k => (vs.map fun v => v k).sum / ((2 : ℝ) + 1)) < -E.geps) ∧
      (Moored (kept E.tools.qual (E.dt s.p).1 inside) → ∀ x : ℕ → Fin 2 → ℝ,
        Smooth (kept E.tools.qual (E.dt s.p).1 inside) (fun i : Fin (E.dt s.p).1.length => (E.dt s.p).1.get i) (fun i : Fin (E.dt s.p).1.length => x i) →
        Spread E.tools.ptol (kept E.tools.qual (E.dt s.p).1 inside) x →
        (∀ r' ∈ clean, ∃ r ∈ inside, ¬ Poor E.tools.qual 2 (E.dt s.p).1 inside 0.15 r ∧ (posns pc r').Perm (r.map fun i => some (x i))) ∧
        ∀ r ∈ inside, ¬ Poor E.tools.qual 2 (E.dt s.p).1 inside 0.15 r → ∃ r' ∈ clean, (posns pc r').Perm (r.map fun i => some (x i))) ∧
      p.length = pc.length ∧
      ∀ r, r ∈ t ↔ r ∈ clean ∧ ∃ vs, take p r = .ok vs ∧ E.fd (fun k => (vs.map fun v => v k).sum / ((2 : ℝ) + 1)) < -(E.h0 * 0.001) := by
  obtain ⟨m, s, t1, hr, hrem, hf⟩ := run_done_serial hser h
  obtain ⟨hin, hsim, hdis⟩ := hdt s.p
  have hap := hap m s hr
  have hsub : t1.Sublist (E.dt s.p).2 := removeOutside_sublist hrem
  unfold finish at hf
  rw [hser, hrank] at hf
  simp only [if_true, bind, Except.bind, pure, Except.pure] at hf
  split at hf
  · simp at hf
  rename_i pt hpt'
  obtain ⟨pc, clean⟩ := pt
  simp only at hf
  split at hf
  · simp at hf
  rename_i p3 hp3
  split at hf
  · simp at hf
  rename_i t3 ht3
  simp only [Except.ok.injEq, Prod.mk.injEq] at hf
  obtain ⟨rfl, rfl⟩ := hf
  refine ⟨m, s, t1, pc, clean, hr, removeOutside_spec hrem, fun hm x hx hsp => ?_, improve_length hp3, removeOutside_spec ht3⟩
  exact C117_termination henc hrk hsrt hpt hqual hsolve hs1 hs2 hchk hap (fun r hr' => hin r (hsub.subset hr'))
    (fun r hr' => hsim r (hsub.subset hr')) (hdis.sublist hsub) hm hx hsp hpt'

/-! ### Three dimensions -/

/-- **C118 (3-D clean-up).** In 3-D, without checks, the final clean-up keeps every tetrahedron, whatever its quality. -/
theorem C118_termination {T : Tools 3 κ ρ} (henc : Function.Injective T.enc) (hrk : Function.Injective T.rk) (hpt : 0 < T.ptol) {o : TermOpts}
    (hchk : o.performChecks = false) {p p' : List (Fin 3 → ℝ)} {t t' : List (List ℕ)} (hap : Apart T.ptol p)
    {sliver : Bool} (h : termination T 0 1 sliver o p t = .ok (p', t')) : SameCells p t p' t' := by
  unfold termination at h
  have hc : fixed T p t = .ok (p', t') := by
    simpa [hchk, bind, Except.bind, pure, Except.pure] using h
  exact (fixed_same henc hrk hpt hap (fun _ h => h) hc).1

/-- **C118 (a 3-D run).** A serial 3-D run without checks returns the tetrahedra of the last triangulation whose centroid is inside before and after
the boundary vertices have been moved to the level set; the clean-up in between loses and invents none. -/
theorem C118_run {E : Env 3 κ ρ} (hser : E.size = 1) (hrank : E.rank = 0) (henc : Function.Injective E.tools.enc)
    (hrk : Function.Injective E.tools.rk) (hpt : 0 < E.tools.ptol) (hchk : E.opts.performChecks = false)
    {n : ℕ} {p0 p : List (Fin 3 → ℝ)} {t : List (List ℕ)} {k : ℕ}
    (hap : ∀ m s, run E m (start p0) = .running s → Apart E.tools.ptol (E.dt s.p).1) (h : run E n (start p0) = .done p t k) :
    ∃ (m : ℕ) (s : State 3) (inside : List (List ℕ)) (pc : List (Fin 3 → ℝ)) (clean : List (List ℕ)), run E m (start p0) = .running s ∧
      (∀ r, r ∈ inside ↔ r ∈ (E.dt s.p).2 ∧ ∃ vs, take (E.dt s.p).1 r = .ok vs ∧
        E.fd (fun k => (vs.map fun v => v k).sum / ((3 : ℝ) + 1)) < -E.geps) ∧
      SameCells (E.dt s.p).1 inside pc clean ∧ p.length = pc.length ∧
      ∀ r, r ∈ t ↔ r ∈ clean ∧ ∃ vs, take p r = .ok vs ∧ E.fd (fun k => (vs.map fun v => v k).sum / ((3 : ℝ) + 1)) < -(E.h0 * 0.001) := by
  obtain ⟨m, s, t1, hr, hrem, hf⟩ := run_done_serial hser h
  have hap := hap m s hr
  unfold finish at hf
  rw [hser, hrank] at hf
  simp only [if_true, bind, Except.bind, pure, Except.pure] at hf
  split at hf
  · simp at hf
  rename_i pt hpt'
  obtain ⟨pc, clean⟩ := pt
  simp only at hf
  split at hf
  · simp at hf
  rename_i p3 hp3
  split at hf
  · simp at hf
  rename_i t3 ht3
  simp only [Except.ok.injEq, Prod.mk.injEq] at hf
  obtain ⟨rfl, rfl⟩ := hf
  exact ⟨m, s, t1, pc, clean, hr, removeOutside_spec hrem, C118_termination henc hrk hpt hchk hap hpt', improve_length hp3, removeOutside_spec ht3⟩

/-! ### A concrete case -/

/-- Three triangles around an interior vertex. -/
def fan : List (List ℕ) := [[0, 1, 3], [1, 2, 3], [2, 0, 3]]

/-- Its vertices; the last one is the interior one. -/
def fanPts : List (Fin 2 → ℝ) := [![0, 0], ![4, 0], ![0, 4], ![1, 1]]

/-- The smoothed vertices. -/
def fanNew : ℕ → Fin 2 → ℝ := fun i => if i = 3 then ![4 / 3, 4 / 3] else fanPts.getD i 0

theorem fan_used {i : ℕ} : Used fan i ↔ i < 4 := by
  constructor
  · rintro ⟨r, hr, hi⟩
    simp only [fan, List.mem_cons, List.not_mem_nil, or_false] at hr
    rcases hr with rfl | rfl | rfl <;> simp at hi <;> omega
  · intro hi
    interval_cases i
    · exact ⟨[0, 1, 3], by simp [fan], by simp⟩
    · exact ⟨[0, 1, 3], by simp [fan], by simp⟩
    · exact ⟨[1, 2, 3], by simp [fan], by simp⟩
    · exact ⟨[0, 1, 3], by simp [fan], by simp⟩

theorem fan_inner : ¬ OnBoundary2 fan 3 := by
  rintro ⟨w, hw, hs⟩
  have hu := fan_used.1 (shared_pos_of (by omega : 0 < shared fan 3 w)).2
  interval_cases w
  · exact absurd hs (by decide)
  · exact absurd hs (by decide)
  · exact absurd hs (by decide)
  · exact hw rfl

theorem fan_moored : Moored fan := by
  intro i hi
  have h0 : OnBoundary2 fan 0 := ⟨1, by decide, by decide⟩
  have h1 : OnBoundary2 fan 1 := ⟨0, by decide, by decide⟩
  have h2 : OnBoundary2 fan 2 := ⟨0, by decide, by decide⟩
  have hi := fan_used.1 hi
  interval_cases i
  · exact ⟨0, h0, .refl⟩
  · exact ⟨1, h1, .refl⟩
  · exact ⟨2, h2, .refl⟩
  · exact ⟨0, h0, .single ⟨by decide, by decide⟩⟩

theorem fan_kept : kept (fun _ => 1) fanPts fan = fan := by
  refine List.filter_eq_self.2 fun r _ => ?_
  simp only [decide_eq_true_eq]
  rintro ⟨-, vs, -, hlt⟩
  norm_num at hlt

theorem fan_smooth : Smooth fan (fun i : Fin fanPts.length => fanPts.get i) fun i : Fin fanPts.length => fanNew i := by
  constructor
  · intro i hi
    have h3 : (i : ℕ) ≠ 3 := fun e => fan_inner (e ▸ hi)
    simp [fanNew, h3]
  · intro i hi k
    have hi' : (i : ℕ) < 4 := i.2
    have h3 : (i : ℕ) = 3 := by
      by_contra hne
      apply hi
      have : (i : ℕ) = 0 ∨ (i : ℕ) = 1 ∨ (i : ℕ) = 2 := by omega
      rcases this with e | e | e <;> rw [e]
      · exact ⟨1, by decide, by decide⟩
      · exact ⟨0, by decide, by decide⟩
      · exact ⟨0, by decide, by decide⟩
    have hi3 : i = (⟨3, by simp [fanPts]⟩ : Fin fanPts.length) := Fin.ext h3
    subst hi3
    have hs : ∀ j : ℕ, j < 3 → shared fan 3 j = 2 := by intro j hj; interval_cases j <;> decide
    have key : ∀ f : Fin 4 → ℝ, ∑ j ∈ Finset.univ.erase (3 : Fin 4), f j = f 0 + f 1 + f 2 := by
      intro f
      rw [show (Finset.univ.erase (3 : Fin 4)) = {0, 1, 2} by decide]
      simp [Finset.sum_insert, add_assoc]
    have := key fun j => (shared fan 3 j : ℝ) * (fanNew 3 k - fanNew j k)
    refine Eq.trans this ?_
    rw [show ((0 : Fin 4) : ℕ) = 0 from rfl, show ((1 : Fin 4) : ℕ) = 1 from rfl, show ((2 : Fin 4) : ℕ) = 2 from rfl,
      hs 0 (by omega), hs 1 (by omega), hs 2 (by omega)]
    fin_cases k <;> simp [fanNew, fanPts] <;> norm_num

open Classical in
/-- Tools for the fan: quality 1 everywhere, an exact solver, the default tolerance. -/
def fanTools : Tools 2 (List ℝ) (List ℕ) where
  enc q := [q 0, q 1]
  rk := id
  vol _ := 1
  qual _ := 1
  srt l := l.insertionSort fun a b => a.1 ≤ b.1
  ptol := 2e-13
  solve _ A b := if h : ∃ y, A * y = b then h.choose else b
  lint p t := .ok (p, t)
  aggregate p t := .ok (p, t)

theorem fan_enc : Function.Injective fanTools.enc := by
  intro a b h
  have h' : a 0 = b 0 ∧ a 1 = b 1 := by simpa [fanTools] using h
  funext i
  fin_cases i
  · exact h'.1
  · exact h'.2

theorem fan_solve : ∀ n A b, (∃ y, A * y = b) → A * fanTools.solve n A b = b := by
  intro n A b h
  simp only [fanTools, dif_pos h]
  exact h.choose_spec

theorem fan_apart : Apart fanTools.ptol fanPts := by
  refine ⟨?_, 4, ?_, ?_⟩
  · have e1 : (![0, 0] : Fin 2 → ℝ) ≠ ![4, 0] := fun h => by have := congrFun h 0; simp at this
    have e2 : (![0, 0] : Fin 2 → ℝ) ≠ ![0, 4] := fun h => by have := congrFun h 1; simp at this
    have e3 : (![4, 0] : Fin 2 → ℝ) ≠ ![0, 4] := fun h => by have := congrFun h 1; simp at this
    have e4 : (![0, 0] : Fin 2 → ℝ) ≠ ![1, 1] := fun h => by have := congrFun h 1; simp at this
    have e5 : (![4, 0] : Fin 2 → ℝ) ≠ ![1, 1] := fun h => by have := congrFun h 1; simp at this
    have e6 : (![0, 4] : Fin 2 → ℝ) ≠ ![1, 1] := fun h => by have := congrFun h 0; simp at this
    simp [fanPts, e1, e2, e3, e4, e5, e6]
  · intro x hx y hy k
    simp only [fanPts, List.mem_cons, List.not_mem_nil, or_false] at hx hy
    rcases hx with rfl | rfl | rfl | rfl <;> rcases hy with rfl | rfl | rfl | rfl <;> fin_cases k <;> norm_num
  · intro x hx y hy hne
    simp only [fanPts, List.mem_cons, List.not_mem_nil, or_false] at hx hy
    rcases hx with rfl | rfl | rfl | rfl <;> rcases hy with rfl | rfl | rfl | rfl <;>
      first
        | exact absurd rfl hne
        | (refine ⟨0, ?_⟩; norm_num [fanTools]; done)
        | (refine ⟨1, ?_⟩; norm_num [fanTools]; done)

theorem fan_ok : InRange fanPts fan ∧ Simplices 3 fan ∧ fan.Pairwise fun r s => ¬ r.Perm s := by
  refine ⟨fun r hr i hi => fan_used.1 ⟨r, hr, hi⟩, fun r hr => ?_, by unfold fan; decide⟩
  simp only [fan, List.mem_cons, List.not_mem_nil, or_false] at hr
  rcases hr with rfl | rfl | rfl <;> decide

theorem fan_good : ¬ Poor fanTools.qual 2 fanPts fan 0.15 [0, 1, 3] := by
  rintro ⟨-, vs, -, hlt⟩
  norm_num [fanTools] at hlt

theorem fan_spread : Spread fanTools.ptol fan fanNew := by
  refine ⟨4, ?_, ?_⟩
  · intro i j hi hj k
    have hi := fan_used.1 hi
    have hj := fan_used.1 hj
    interval_cases i <;> interval_cases j <;> fin_cases k <;> norm_num [fanNew, fanPts] <;> norm_num [abs_le]
  · intro i j hi hj hne
    have hi := fan_used.1 hi
    have hj := fan_used.1 hj
    interval_cases i <;> interval_cases j <;>
      first
        | exact absurd rfl hne
        | (refine ⟨0, ?_⟩; norm_num [fanTools, fanNew, fanPts]; done)
        | (refine ⟨1, ?_⟩; norm_num [fanTools, fanNew, fanPts]; done)
        | (refine ⟨0, ?_⟩; norm_num [fanTools, fanNew, fanPts, lt_abs]; done)

/-- The hypotheses of C117 hold for the fan: the interior vertex moves from (1, 1) to (4/3, 4/3). -/
example : Function.Injective fanTools.enc ∧ Function.Injective fanTools.rk ∧ IsArgsort fanTools.srt ∧ 0 < fanTools.ptol ∧
    (∀ vs ws, vs.Perm ws → fanTools.qual vs = fanTools.qual ws) ∧ (∀ n A b, (∃ y, A * y = b) → A * fanTools.solve n A b = b) ∧
    Apart fanTools.ptol fanPts ∧ InRange fanPts fan ∧ Simplices 3 fan ∧ (fan.Pairwise fun r s => ¬ r.Perm s) ∧
    Moored (kept fanTools.qual fanPts fan) ∧
    Smooth (kept fanTools.qual fanPts fan) (fun i : Fin fanPts.length => fanPts.get i) (fun i : Fin fanPts.length => fanNew i) ∧
    Spread fanTools.ptol (kept fanTools.qual fanPts fan) fanNew ∧ ∃ p' t', termination fanTools 0 1 false ⟨true, true, false⟩ fanPts fan = .ok (p', t') := by
  have hk : kept fanTools.qual fanPts fan = fan := fan_kept
  refine ⟨fan_enc, fun _ _ h => h, isArgsort_insertionSort, by norm_num [fanTools], fun _ _ _ => rfl, fan_solve, fan_apart, fan_ok.1, fan_ok.2.1,
    fan_ok.2.2, by rw [hk]; exact fan_moored, by rw [hk]; exact fan_smooth, by rw [hk]; exact fan_spread, ?_⟩
  exact C117_succeeds fan_enc (fun _ _ h => h) isArgsort_insertionSort (by norm_num [fanTools]) (fun _ _ _ => rfl) rfl rfl rfl fan_apart fan_ok.1
    fan_ok.2.1 fan_ok.2.2 (r₀ := [0, 1, 3]) (by simp [fan]) fan_good

theorem removeOutside_ok {fd : (Fin d → ℝ) → ℝ} {g : ℝ} {p : List (Fin d → ℝ)} {t : List (List ℕ)} (h : InRange p t) :
    ∃ u, Project.removeOutside fd g p t = .ok u := by
  obtain ⟨ks, hks⟩ := mapM_exists (f := Project.keeps fd g p) (l := t) (by
    intro r hr
    obtain ⟨vs, hvs⟩ := take_ok (h r hr)
    exact ⟨_, by simp only [Project.keeps, hvs, bind, Except.bind, pure, Except.pure]; rfl⟩)
  exact ⟨_, by simp only [Project.removeOutside, hks, bind, Except.bind, pure, Except.pure]; rfl⟩

/-- The last pass raises nothing after a successful clean-up. -/
theorem finish_ok {E : Env 2 κ ρ} (hser : E.size = 1) (hrank : E.rank = 0) (hrk : Function.Injective E.tools.rk) {p p' : List (Fin 2 → ℝ)}
    {t t' : List (List ℕ)} (h : termination E.tools 0 1 false E.opts p t = .ok (p', t')) (hs : Simplices 3 t') (hr : InRange p' t') :
    ∃ q u, finish E p t = .ok (q, u) := by
  obtain ⟨bv, hbv, -, hm⟩ := C35_boundary_vertices2 hrk hs
  have hb : ∀ i ∈ bv, i < p'.length := by
    intro i hi
    obtain ⟨w, -, hw⟩ := (hm i).1 hi
    obtain ⟨r, hr', hir⟩ := (shared_pos_of (by omega : 0 < shared t' i w)).1
    exact hr r hr' i hir
  obtain ⟨q, hq, hl, -⟩ := Project.improveLoop_spec (fd := E.fd) (deps := E.deps) (bid := bv) 5 0 1 p' hb
  have himp : Project.improve E.tools.rk E.fd E.deps p' t' = .ok q := by simp only [Project.improve, hbv, bind, Except.bind, hq]
  obtain ⟨u, hu⟩ := removeOutside_ok (fd := E.fd) (g := E.h0 * 0.001) (p := q) (t := t') fun r hr' i hi => by rw [hl]; exact hr r hr' i hi
  exact ⟨q, u, by simp only [finish, hser, hrank, h, himp, hu, if_true, bind, Except.bind, pure, Except.pure]⟩

/-- A call with one iteration on the fan. -/
def fanEnv (o : TermOpts) : Env 2 (List ℝ) (List ℕ) where
  tools := fanTools
  dt p := (p, fan)
  ghost _ _ _ := .error "not used on one process"
  fd _ := -1
  subs := []
  fh _ := 1
  h0 := 1
  deltaT := 0.3
  geps := 0.1
  deps := 1 / 2 ^ 26
  eps := 1 / 2 ^ 52
  pfix := []
  rank := 0
  size := 1
  maxIter := 1
  opts := o

theorem run_one {E : Env d κ ρ} {p0 p : List (Fin d → ℝ)} {t : List (List ℕ)} {k : ℕ} (h : run E 1 (start p0) = .done p t k) {m : ℕ} {s : State d}
    (hm : run E m (start p0) = .running s) : s = start p0 := by
  cases m with
  | zero => exact (Outcome.running.inj hm).symm
  | succ m =>
    simp only [run] at h hm
    cases hst : step E (start p0) with
    | running s' => simp [hst] at h
    | done a b c => simp [hst] at hm
    | raised e => simp [hst] at hm

theorem fan_run {o : TermOpts} {p' : List (Fin 2 → ℝ)} {t' : List (List ℕ)} (h : termination fanTools 0 1 false o fanPts fan = .ok (p', t'))
    (hs : Simplices 3 t') (hr : InRange p' t') : ∃ p t k, run (fanEnv o) 1 (start fanPts) = .done p t k := by
  obtain ⟨q, u, hf⟩ := finish_ok (E := fanEnv o) rfl rfl (fun _ _ h => h) h hs hr
  have hrem : Project.removeOutside (fun _ : Fin 2 → ℝ => (-1 : ℝ)) 0.1 fanPts fan = .ok fan := by
    have : ((0.1 : ℝ) < 1) := by norm_num
    simp [Project.removeOutside, Project.keeps, Np.take, item, fan, fanPts, bind, Except.bind, pure, Except.pure, this, List.mapM_cons]
  have htop : topology (fanEnv o) (start fanPts) = .ok (fanPts, fan, [], [], 0) := by
    simp only [topology, fanEnv, start, List.mapM_nil, bind, Except.bind, pure, Except.pure, hrem, gt_iff_lt, lt_irrefl, if_false]
  refine ⟨q, u, 1, ?_⟩
  simp only [run, step, htop, hf]
  rw [if_pos (by simp [start, fanEnv])]
  rfl

theorem rows_inRange {T : Tools d κ ρ} {p p' : List (Fin d → ℝ)} {t t' : List (List ℕ)} (hrk : Function.Injective T.rk) (h : fixed T p t = .ok (p', t')) :
    InRange p' t' := by
  cases p with
  | nil => simp [fixed, fixMeshK, bind, Except.bind] at h
  | cons x0 ps =>
    unfold fixed at h
    simp only [bind, Except.bind, pure, Except.pure] at h
    split at h
    · simp at h
    rename_i x hx
    obtain ⟨a, b, c⟩ := x
    simp only [Except.ok.injEq, Prod.mk.injEq] at h
    obtain ⟨rfl, rfl⟩ := h
    have hx' : fixMesh (keyOf T.enc T.ptol (x0 :: ps)) T.rk T.vol (x0 :: ps) t true true = .ok (a, b, c) := hx
    obtain ⟨hp, ht⟩ := fixMesh_inRange hx'
    obtain ⟨q1, u1, j1, e1, hin, -⟩ := C31_clean (keyOf T.enc T.ptol (x0 :: ps)) hrk T.vol hp ht true
    rw [hx'] at e1
    cases e1
    exact hin

/-- The hypotheses of C116_run are met by a call on the fan without smoothing, those of C117_run by one with smoothing. -/
example : (∃ p t k, run (fanEnv ⟨true, false, false⟩) 1 (start fanPts) = .done p t k) ∧
    (∃ p t k, run (fanEnv ⟨true, true, false⟩) 1 (start fanPts) = .done p t k) ∧
    ∀ o : TermOpts, o = ⟨true, false, false⟩ ∨ o = ⟨true, true, false⟩ → ∀ m s, run (fanEnv o) m (start fanPts) = .running s →
      Apart (fanEnv o).tools.ptol ((fanEnv o).dt s.p).1 := by
  have hk : kept fanTools.qual fanPts fan = fan := fan_kept
  obtain ⟨p', t', h⟩ := C116_succeeds (o := ⟨true, false, false⟩) fan_enc (fun _ _ h => h) isArgsort_insertionSort (by norm_num [fanTools]) (fun _ _ _ => rfl)
    (Or.inr rfl) rfl fan_apart fan_ok.1 fan_ok.2.1 fan_ok.2.2 (r₀ := [0, 1, 3]) (by simp [fan]) fan_good
  obtain ⟨q', u', g⟩ := C117_succeeds (o := ⟨true, true, false⟩) fan_enc (fun _ _ h => h) isArgsort_insertionSort (by norm_num [fanTools]) (fun _ _ _ => rfl)
    rfl rfl rfl fan_apart fan_ok.1 fan_ok.2.1 fan_ok.2.2 (r₀ := [0, 1, 3]) (by simp [fan]) fan_good
  have h1 := C116_termination fan_enc (fun _ _ h => h) isArgsort_insertionSort (by norm_num [fanTools]) (fun _ _ _ => rfl)
    (Or.inr rfl) rfl fan_apart fan_ok.1 fan_ok.2.1 fan_ok.2.2 h
  have g1 := C117_termination fan_enc (fun _ _ h => h) isArgsort_insertionSort (by norm_num [fanTools]) (fun _ _ _ => rfl) fan_solve
    rfl rfl rfl fan_apart fan_ok.1 fan_ok.2.1 fan_ok.2.2 (by rw [hk]; exact fan_moored) (x := fanNew) (by rw [hk]; exact fan_smooth)
    (by rw [hk]; exact fan_spread) g
  have hin : InRange p' t' := by
    have : (cleanup2 fanTools ⟨true, false, false⟩ fanPts fan >>= fun x => fixed fanTools x.1 x.2) = .ok (p', t') := by
      simpa [termination, bind, Except.bind, pure, Except.pure] using h
    cases hc : cleanup2 fanTools ⟨true, false, false⟩ fanPts fan with
    | error e => simp [hc, bind, Except.bind] at this
    | ok x => exact rows_inRange (fun _ _ h => h) (by simpa [hc, bind, Except.bind] using this)
  have gin : InRange q' u' := by
    obtain ⟨p2, t2, p3, t3, A, b, -, -, -, h4⟩ := termination_smooth rfl rfl rfl g
    exact rows_inRange (fun _ _ h => h) h4
  have hs : Simplices 3 t' := simplices_same fan_apart.1 fan_ok.1 fan_ok.2.1 fun r' hr' => by
    obtain ⟨r, hr0, -, hp⟩ := h1.1 r' hr'
    exact ⟨r, hr0, hp⟩
  have gs : Simplices 3 u' := by
    intro r' hr'
    obtain ⟨r, hr0, -, hp⟩ := g1.1 r' hr'
    have hl : r'.length = r.length := by simpa [posns] using hp.length_eq
    refine ⟨by rw [hl, (fan_ok.2.1 r hr0).1], ?_⟩
    have : (posns q' r').Nodup := by
      refine hp.nodup_iff.2 ?_
      refine (List.nodup_map_iff_inj_on (fan_ok.2.1 r hr0).2).2 fun i hi j hj e => ?_
      by_contra hne
      obtain ⟨L, hL, hsep⟩ := fan_spread
      obtain ⟨k, hk⟩ := hsep i j ⟨r, hr0, hi⟩ ⟨r, hr0, hj⟩ hne
      have := hL i j ⟨r, hr0, hi⟩ ⟨r, hr0, hj⟩ k
      have e' : fanNew i = fanNew j := Option.some.inj e
      rw [e', sub_self, abs_zero] at this hk
      have : 0 ≤ fanTools.ptol * L := mul_nonneg (by norm_num [fanTools]) this
      linarith
    exact List.Nodup.of_map _ this
  have r1 := fan_run h hs hin
  have r2 := fan_run g gs gin
  refine ⟨r1, r2, ?_⟩
  rintro o (rfl | rfl) m s hm
  · obtain ⟨p, t, k, hr⟩ := r1
    rw [run_one hr hm]
    exact fan_apart
  · obtain ⟨p, t, k, hr⟩ := r2
    rw [run_one hr hm]
    exact fan_apart

/-- The hypotheses of C118_run are met by a call on one tetrahedron in a slab. -/
example : (∃ p t k, run (tetEnv fun x => |x 0| - 10) 1 (start slabTet) = .done p t k) ∧
    (tetEnv fun x => |x 0| - 10).opts.performChecks = false ∧
    ∀ m s, run (tetEnv fun x => |x 0| - 10) m (start slabTet) = .running s → Apart realTools.ptol ((tetEnv fun x => |x 0| - 10).dt s.p).1 := by
  obtain ⟨p, a, b, c, e, hr, -, -⟩ := C83_inverted
  refine ⟨⟨p, _, _, hr⟩, rfl, fun m s hm => ?_⟩
  rw [run_one hr hm]
  show Apart realTools.ptol slabTet
  refine ⟨?_, 20, ?_, ?_⟩
  · have e1 : (![-10, 0, -10] : Fin 3 → ℝ) ≠ ![5, 0, -1] := fun h => by have := congrFun h 0; norm_num at this
    have e2 : (![-10, 0, -10] : Fin 3 → ℝ) ≠ ![10, 0, 0] := fun h => by have := congrFun h 0; norm_num at this
    have e3 : (![-10, 0, -10] : Fin 3 → ℝ) ≠ ![10, 10, 0] := fun h => by have := congrFun h 0; norm_num at this
    have e4 : (![5, 0, -1] : Fin 3 → ℝ) ≠ ![10, 0, 0] := fun h => by have := congrFun h 0; norm_num at this
    have e5 : (![5, 0, -1] : Fin 3 → ℝ) ≠ ![10, 10, 0] := fun h => by have := congrFun h 0; norm_num at this
    have e6 : (![10, 0, 0] : Fin 3 → ℝ) ≠ ![10, 10, 0] := fun h => by have := congrFun h 1; norm_num at this
    simp [slabTet, e1, e2, e3, e4, e5, e6]
  · intro x hx y hy k
    simp only [slabTet, List.mem_cons, List.not_mem_nil, or_false] at hx hy
    rcases hx with rfl | rfl | rfl | rfl <;> rcases hy with rfl | rfl | rfl | rfl <;> fin_cases k <;> norm_num
  · intro x hx y hy hne
    simp only [slabTet, List.mem_cons, List.not_mem_nil, or_false] at hx hy
    rcases hx with rfl | rfl | rfl | rfl <;> rcases hy with rfl | rfl | rfl | rfl <;>
      first
        | exact absurd rfl hne
        | (refine ⟨0, ?_⟩; norm_num [realTools]; done)
        | (refine ⟨1, ?_⟩; norm_num [realTools]; done)

end

end SM.MeshLoop
