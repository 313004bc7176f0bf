import Verif.Props.MeshLoop
import Verif.Props.Returned
import Mathlib.Data.List.Perm.Basic
import Mathlib.Data.Multiset.Basic
import Mathlib.Tactic.Linarith

/-!
# C116: the final clean-up of a 2-D mesh deletes exactly the poor boundary triangles
-/

namespace SM.MeshLoop

open Np SM.Topology FixMesh

noncomputable section
variable {d : ℕ} {κ ρ : Type} [LinearOrder κ] [LinearOrder ρ]

/-- The positions of the vertices of a row. -/
def posns {P : Type} (p : List P) (r : List ℕ) : List (Option P) := r.map fun i => p[i]?

/-- Two meshes have the same cells, as positions in any order. -/
def SameCells {P : Type} (p : List P) (t : List (List ℕ)) (p' : List P) (t' : List (List ℕ)) : Prop :=
  (∀ r' ∈ t', ∃ r ∈ t, (posns p' r').Perm (posns p r)) ∧ (∀ r ∈ t, ∃ r' ∈ t', (posns p' r').Perm (posns p r))

/-- `fix_mesh` has nothing to merge: two different points are more than `ptol` times the extent of the point set apart in some coordinate. -/
def Apart (ptol : ℝ) (p : List (Fin d → ℝ)) : Prop :=
  p.Nodup ∧ ∃ L, (∀ x ∈ p, ∀ y ∈ p, ∀ k, |x k - y k| ≤ L) ∧ ∀ x ∈ p, ∀ y ∈ p, x ≠ y → ∃ k, ptol * L < |x k - y k|

theorem Apart.key {ptol : ℝ} (hpt : 0 < ptol) {p : List (Fin d → ℝ)} (h : Apart ptol p) {enc : (Fin d → ℝ) → κ}
    (henc : Function.Injective enc) {q : List (Fin d → ℝ)} (hq : ∀ x ∈ q, x ∈ p) :
    ∀ x ∈ q, ∀ y ∈ q, keyOf enc ptol q x = keyOf enc ptol q y → x = y := by
  intro x hx y hy hxy
  obtain ⟨-, L, hL, hap⟩ := h
  by_contra hne
  obtain ⟨k, hk⟩ := hap x (hq x hx) y (hq y hy) hne
  cases q with
  | nil => simp at hx
  | cons q0 qs =>
    obtain ⟨M, ⟨⟨a, ha, b, hb, i, hM⟩, hup⟩, hs⟩ := C32_tolerance (Nat.pos_of_ne_zero fun h0 => by subst h0; exact k.elim0) ptol q0 qs
    have hML : M ≤ L := by rw [hM]; exact hL a (hq a ha) b (hq b hb) i
    have hxyM : |x k - y k| ≤ M := hup ⟨x, hx, y, hy, k, rfl⟩
    have hsn : snapPt (snapLen ptol q0 qs) x = snapPt (snapLen ptol q0 qs) y := henc hxy
    have hM0 : 0 ≤ M := (abs_nonneg _).trans hxyM
    have hle : ptol * M ≤ ptol * L := mul_le_mul_of_nonneg_left hML hpt.le
    rcases hM0.lt_or_eq with hpos | hz
    · have := C32_snap_close (by rw [hs]; exact mul_pos hpt hpos) hsn k
      rw [hs] at this
      linarith
    · rw [← hz] at hxyM
      have := mul_nonneg hpt.le ((abs_nonneg _).trans (hL x (hq x hx) y (hq y hy) k))
      linarith

/-! ### The same cells have the same boundary -/

section same
variable {P : Type}

theorem posns_back [DecidableEq P] {p : List P} (hn : p.Nodup) {r : List ℕ} (hr : ∀ i ∈ r, i < p.length) :
    (posns p r).map (fun o => o.elim 0 p.idxOf) = r := by
  unfold posns
  rw [List.map_map]
  conv_rhs => rw [← List.map_id r]
  refine List.map_congr_left fun i hi => ?_
  have := hr i hi
  simp [List.getElem?_eq_getElem this, hn.idxOf_getElem]

theorem posns_perm {p : List P} (hn : p.Nodup) {r s : List ℕ} (hr : ∀ i ∈ r, i < p.length)
    (hs : ∀ i ∈ s, i < p.length) (h : (posns p r).Perm (posns p s)) : r.Perm s := by
  classical
  have := h.map fun o => o.elim 0 p.idxOf
  rwa [posns_back hn hr, posns_back hn hs] at this

theorem mem_posns {p : List P} (hn : p.Nodup) {r : List ℕ} (hr : ∀ i ∈ r, i < p.length) {i : ℕ} (hi : i < p.length) :
    i ∈ r ↔ p[i]? ∈ posns p r := by
  constructor
  · exact fun h => List.mem_map.2 ⟨i, h, rfl⟩
  · intro h
    obtain ⟨j, hj, e⟩ := List.mem_map.1 h
    have := (List.getElem?_inj hi hn).1 e.symm
    rwa [this]

/-- Number of cells with two given positions. -/
def sharedPos [DecidableEq P] (cells : List (List (Option P))) (x y : Option P) : ℕ :=
  cells.countP fun c => decide (x ∈ c ∧ y ∈ c)

theorem shared_pos [DecidableEq P] {p : List P} (hn : p.Nodup) {t : List (List ℕ)} (ht : InRange p t) {a b : ℕ}
    (ha : a < p.length) (hb : b < p.length) : shared t a b = sharedPos (t.map (posns p)) p[a]? p[b]? := by
  unfold shared sharedPos
  rw [List.countP_map]
  refine List.countP_congr fun r hr => ?_
  simp only [Function.comp, decide_eq_true_eq, mem_posns hn (ht r hr) ha, mem_posns hn (ht r hr) hb]

theorem cells_nodup {p : List P} (hn : p.Nodup) {t : List (List ℕ)} (ht : InRange p t) (hd : t.Pairwise fun r s => ¬ r.Perm s) :
    (t.map fun r => (posns p r : Multiset (Option P))).Nodup := by
  unfold List.Nodup
  rw [List.pairwise_map]
  refine List.Pairwise.imp_of_mem (fun {r s} hr hs hne he => ?_) hd
  exact hne (posns_perm hn (ht r hr) (ht s hs) (Quotient.exact he))

theorem sharedPos_eq [DecidableEq P] {p p' : List P} (hn : p.Nodup) (hn' : p'.Nodup) {t t' : List (List ℕ)} (ht : InRange p t)
    (ht' : InRange p' t') (hd : t.Pairwise fun r s => ¬ r.Perm s) (hd' : t'.Pairwise fun r s => ¬ r.Perm s)
    (h : SameCells p t p' t') (x y : Option P) : sharedPos (t'.map (posns p')) x y = sharedPos (t.map (posns p)) x y := by
  have hperm : (t'.map fun r => (posns p' r : Multiset (Option P))).Perm (t.map fun r => (posns p r : Multiset (Option P))) := by
    refine (List.perm_ext_iff_of_nodup (cells_nodup hn' ht' hd') (cells_nodup hn ht hd)).2 fun m => ?_
    simp only [List.mem_map]
    constructor
    · rintro ⟨r', hr', rfl⟩
      obtain ⟨r, hr, hp⟩ := h.1 r' hr'
      exact ⟨r, hr, Quotient.sound hp.symm⟩
    · rintro ⟨r, hr, rfl⟩
      obtain ⟨r', hr', hp⟩ := h.2 r hr
      exact ⟨r', hr', Quotient.sound hp⟩
  have hc : ∀ (q : List P) (u : List (List ℕ)), sharedPos (u.map (posns q)) x y =
      (u.map fun r => (posns q r : Multiset (Option P))).countP fun m => decide (x ∈ m ∧ y ∈ m) := by
    intro q u
    unfold sharedPos
    rw [List.countP_map, List.countP_map]
    refine List.countP_congr fun r _ => ?_
    simp
  rw [hc, hc, hperm.countP_eq]

theorem onBoundary_pos {p : List P} (hn : p.Nodup) {t : List (List ℕ)} (ht : InRange p t) {a : ℕ} :
    OnBoundary2 t a ↔ a < p.length ∧ ∃ y : P, some y ≠ p[a]? ∧ by
      classical exact sharedPos (t.map (posns p)) p[a]? (some y) = 1 := by
  classical
  constructor
  · rintro ⟨w, hw, hs⟩
    have hpos : 0 < shared t a w := by omega
    obtain ⟨r, hr, hd⟩ := List.countP_pos_iff.1 hpos
    obtain ⟨h1, h2⟩ := of_decide_eq_true hd
    have ha := ht r hr a h1
    have hb := ht r hr w h2
    refine ⟨ha, p[w], ?_, ?_⟩
    · rw [← List.getElem?_eq_getElem hb]
      exact fun e => hw ((List.getElem?_inj hb hn).1 e)
    · rw [← List.getElem?_eq_getElem hb]
      have := shared_pos hn ht ha hb
      rw [hs] at this
      convert this.symm
  · rintro ⟨ha, y, hy, hs⟩
    have hs' : sharedPos (t.map (posns p)) p[a]? (some y) = 1 := by convert hs
    have hpos : 0 < sharedPos (t.map (posns p)) p[a]? (some y) := by omega
    obtain ⟨c, hc, hd⟩ := List.countP_pos_iff.1 hpos
    obtain ⟨r, hr, rfl⟩ := List.mem_map.1 hc
    obtain ⟨-, h2⟩ := of_decide_eq_true hd
    obtain ⟨b, hbr, e⟩ := List.mem_map.1 h2
    have hb := ht r hr b hbr
    refine ⟨b, ?_, ?_⟩
    · rintro rfl; exact hy e.symm
    · rw [shared_pos hn ht ha hb, e, hs']

variable {K : Type} [Field K] [LinearOrder K] [IsStrictOrderedRing K]

/-- Poor boundary triangles are the same in two meshes with the same cells, if the quality does not depend on the order of the vertices. -/
theorem poor_same {p p' : List P} (hn : p.Nodup) (hn' : p'.Nodup) {t t' : List (List ℕ)} (ht : InRange p t)
    (ht' : InRange p' t') (hd : t.Pairwise fun r s => ¬ r.Perm s) (hd' : t'.Pairwise fun r s => ¬ r.Perm s)
    (h : SameCells p t p' t') {qual : List P → K} (hq : ∀ vs ws, vs.Perm ws → qual vs = qual ws) {mq : K} {r r' : List ℕ}
    (hr' : r' ∈ t') (hp : (posns p' r').Perm (posns p r)) (hpoor : Poor qual 2 p t mq r) : Poor qual 2 p' t' mq r' := by
  classical
  obtain ⟨⟨v, hv, hb⟩, vs, hvs, hlt⟩ := hpoor
  have hb' : OnBoundary2 t v := by simpa [OnBoundary] using hb
  obtain ⟨ha, y, hy, hs⟩ := (onBoundary_pos hn ht).1 hb'
  have hmem : p[v]? ∈ posns p' r' := hp.symm.subset (List.mem_map.2 ⟨v, hv, rfl⟩)
  obtain ⟨v', hv', e⟩ := List.mem_map.1 hmem
  refine ⟨⟨v', hv', ?_⟩, ?_⟩
  · have : OnBoundary2 t' v' := (onBoundary_pos hn' ht').2 ⟨ht' r' hr' v' hv', y, by rw [e]; exact hy, by
      rw [e]
      have h1 := sharedPos_eq hn hn' ht ht' hd hd' h p[v]? (some y)
      have hs' : sharedPos (t.map (posns p)) p[v]? (some y) = 1 := by convert hs
      rw [hs'] at h1
      convert h1⟩
    simpa [OnBoundary] using this
  · have hperm : (posns p' r').Perm (vs.map some) := by rw [← hvs]; exact hp
    obtain ⟨ws, hw⟩ : ∃ ws : List P, posns p' r' = ws.map some := by
      refine ⟨(posns p' r').filterMap id, ?_⟩
      have hall : ∀ o ∈ posns p' r', ∃ x, o = some x := fun o ho => by
        obtain ⟨x, -, e⟩ := List.mem_map.1 (hperm.subset ho)
        exact ⟨x, e.symm⟩
      generalize posns p' r' = l at hall
      induction l with
      | nil => rfl
      | cons o l ih =>
        obtain ⟨x, rfl⟩ := hall o (by simp)
        simp only [List.filterMap_cons, id, List.map_cons]
        exact congrArg (some x :: ·) (ih fun o ho => hall o (by simp [ho]))
    refine ⟨ws, hw, ?_⟩
    have hpw : ws.Perm vs := by
      rw [hw] at hperm
      exact (List.map_perm_map_iff (Option.some_injective _)).1 hperm
    rw [hq ws vs hpw]
    exact hlt

end same

/-! ### The clean-up -/

/-- `fix_mesh` on a mesh with nothing to merge. -/
theorem fixed_same {T : Tools d κ ρ} (henc : Function.Injective T.enc) (hrk : Function.Injective T.rk) (hpt : 0 < T.ptol)
    {p0 p p' : List (Fin d → ℝ)} (hap : Apart T.ptol p0) (hsub : ∀ x ∈ p, x ∈ p0) {t t' : List (List ℕ)} (h : fixed T p t = .ok (p', t')) :
    SameCells p t p' t' ∧ (∀ x ∈ p', x ∈ p) ∧ p'.Nodup ∧ InRange p' t' ∧ (∀ i < p'.length, ∃ r ∈ t', i ∈ r) ∧
      t'.Pairwise fun r s => ¬ r.Perm s := by
  cases p with
  | nil => simp [fixed, fixMeshK, fixMesh, bind, Except.bind, throw, throwThe, MonadExceptOf.throw] at h
  | cons x0 ps =>
    have h' : ∃ jx, fixMesh (keyOf T.enc T.ptol (x0 :: ps)) T.rk T.vol (x0 :: ps) t true true = .ok (p', t', jx) := by
      unfold fixed at h
      simp only [bind, Except.bind, pure, Except.pure] at h
      split at h
      · simp at h
      · rename_i x hx
        obtain ⟨a, b, c⟩ := x
        simp only [Except.ok.injEq, Prod.mk.injEq] at h
        obtain ⟨rfl, rfl⟩ := h
        exact ⟨c, hx⟩
    obtain ⟨jx, hrun⟩ := h'
    obtain ⟨hp, ht⟩ := fixMesh_inRange hrun
    obtain ⟨q1, u1, j1, e1, hin, hused, hrows, hkeys⟩ := C31_clean (keyOf T.enc T.ptol (x0 :: ps)) hrk T.vol hp ht true
    obtain ⟨q2, u2, j2, e2, hx1, hx2⟩ := C32_exact (keyOf T.enc T.ptol (x0 :: ps)) hrk T.vol hp ht (hap.key hpt henc hsub) true true
    obtain ⟨q3, u3, j3, e3, hg, -, -⟩ := C32_geometry (keyOf T.enc T.ptol (x0 :: ps)) hrk T.vol hp ht true true
    rw [hrun] at e1 e2 e3
    cases e1; cases e2; cases e3
    exact ⟨⟨hx1, hx2⟩, hg, hkeys.imp fun hab e => hab (by rw [e]), hin, hused, hrows⟩

theorem delete_sub {P K : Type} [Field K] [LinearOrder K] [IsStrictOrderedRing K] {key : P → κ} {rk : List ℕ → ρ}
    (hrk : Function.Injective rk) {vol qual : List P → K} {srt : List (ℕ × ℕ) → List (ℕ × ℕ)} {p p' : List P} {t t' : List (List ℕ)} {dim : ℕ} {mq : K}
    (h : deleteBoundaryEntities key rk vol qual srt p t dim mq = .ok (p', t')) : ∀ x ∈ p', x ∈ p := by
  unfold deleteBoundaryEntities at h
  simp only [bind, Except.bind, pure, Except.pure] at h
  split at h
  · simp at h
  split at h
  · simp at h
  split at h
  · simp at h
  split at h
  · simp at h
  rename_i x hx
  obtain ⟨a, b, c⟩ := x
  simp only [Except.ok.injEq, Prod.mk.injEq] at h
  obtain ⟨rfl, rfl⟩ := h
  obtain ⟨hp, ht⟩ := fixMesh_inRange hx
  obtain ⟨q3, u3, j3, e3, hg, -, -⟩ := C32_geometry key hrk vol hp ht true true
  rw [hx] at e3
  cases e3
  exact hg

/-- **C116 (the clean-up).** On rank 0 of a 2-D run without smoothing and checks, the final clean-up of a mesh of different triangles whose
vertices are apart keeps exactly the triangles that either do not touch the boundary or have a quality of at least 0.15. -/
theorem C116_termination {T : Tools 2 κ ρ} (henc : Function.Injective T.enc) (hrk : Function.Injective T.rk) (hsrt : IsArgsort T.srt)
    (hpt : 0 < T.ptol) (hqual : ∀ vs ws, vs.Perm ws → T.qual vs = T.qual ws) {o : TermOpts}
    (hno : o.subdomainsNone = false ∨ o.meshImprovement = false) (hchk : o.performChecks = false)
    {p p' : List (Fin 2 → ℝ)} {t t' : List (List ℕ)} (hap : Apart T.ptol p) (hr : InRange p t) (ht : Simplices 3 t)
    (hd : t.Pairwise fun r s => ¬ r.Perm s) (h : termination T 0 1 false o p t = .ok (p', t')) :
    (∀ r' ∈ t', ∃ r ∈ t, ¬ Poor T.qual 2 p t 0.15 r ∧ (posns p' r').Perm (posns p r)) ∧
      ∀ r ∈ t, ¬ Poor T.qual 2 p t 0.15 r → ∃ r' ∈ t', (posns p' r').Perm (posns p r) := by
  unfold termination at h
  have hc2 : (cleanup2 T o p t >>= fun x => fixed T x.1 x.2) = .ok (p', t') := by
    simpa [hchk, bind, Except.bind, pure, Except.pure] using h
  unfold cleanup2 at hc2
  have hsm : (o.subdomainsNone && o.meshImprovement) = false := by
    rcases hno with h | h <;> simp [h]
  simp only [hsm, Bool.false_eq_true, if_false, bind, Except.bind, pure, Except.pure] at hc2
  cases h1 : fixed T p t with
  | error e => simp [h1] at hc2
  | ok x =>
    obtain ⟨p2, t2⟩ := x
    simp only [h1] at hc2
    cases h2 : deleteBoundaryEntities (keyOf T.enc T.ptol p2) T.rk T.vol T.qual T.srt p2 t2 2 0.15 with
    | error e => simp [h2] at hc2
    | ok x =>
      obtain ⟨p3, t3⟩ := x
      simp only [h2] at hc2
      obtain ⟨hs1, hsub1, hn1, hin1, hus1, hd1⟩ := fixed_same henc hrk hpt hap (fun _ h => h) h1
      have hsub3 := delete_sub hrk h2
      obtain ⟨hs2, -, -, -, -, -⟩ := fixed_same henc hrk hpt hap (fun x hx => hsub1 x (hsub3 x hx)) hc2
      have ht2 : Simplices 3 t2 := by
        intro r' hr'
        obtain ⟨r, hr0, hp⟩ := hs1.1 r' hr'
        have hl : r'.length = r.length := by simpa [posns] using hp.length_eq
        refine ⟨by rw [hl, (ht r hr0).1], ?_⟩
        have : (posns p2 r').Nodup := by
          refine hp.nodup_iff.2 ?_
          unfold posns
          refine (List.nodup_map_iff_inj_on (ht r hr0).2).2 fun i hi j hj e => ?_
          exact (List.getElem?_inj (hr r hr0 i hi) hap.1).1 e
        exact List.Nodup.of_map _ this
      have hp2 : p2 ≠ [] := by
        rintro rfl
        simp [deleteBoundaryEntities, fixMesh, bind, Except.bind, throw, throwThe, MonadExceptOf.throw] at h2
        split at h2
        · simp at h2
        split at h2
        · simp at h2
        split at h2 <;> simp at h2
      obtain ⟨q, u, e, hx1, hx2⟩ := C37_exact (keyOf T.enc T.ptol p2) hrk T.vol T.qual hsrt hp2 (Or.inl rfl) ht2
        (fun v => ⟨fun hv => hus1 v hv, fun ⟨r, hr, hv⟩ => hin1 r hr v hv⟩) (hap.key hpt henc hsub1) (0.15 : ℝ)
      rw [h2] at e
      cases e
      have hsame' : SameCells p2 t2 p t := by
        refine ⟨fun r hr0 => ?_, fun r' hr' => ?_⟩
        · obtain ⟨r', hr', hp⟩ := hs1.2 r hr0
          exact ⟨r', hr', hp.symm⟩
        · obtain ⟨r, hr0, hp⟩ := hs1.1 r' hr'
          exact ⟨r, hr0, hp.symm⟩
      constructor
      · intro r' hr'
        obtain ⟨r3, hr3, hp3⟩ := hs2.1 r' hr'
        obtain ⟨r2, hr2, hnp, hp2'⟩ := hx1 r3 hr3
        obtain ⟨r, hr0, hp1⟩ := hs1.1 r2 hr2
        refine ⟨r, hr0, fun hpoor => hnp ?_, (hp3.trans hp2').trans hp1⟩
        exact poor_same hap.1 hn1 hr hin1 hd hd1 hs1 hqual hr2 hp1 hpoor
      · intro r hr0 hnp
        obtain ⟨r2, hr2, hp1⟩ := hs1.2 r hr0
        obtain ⟨r3, hr3, hp2'⟩ := hx2 r2 hr2 fun hpoor =>
          hnp (poor_same hn1 hap.1 hin1 hr hd1 hd hsame' hqual hr0 hp1.symm hpoor)
        obtain ⟨r', hr', hp3⟩ := hs2.2 r3 hr3
        exact ⟨r', hr', (hp3.trans hp2').trans hp1⟩

/-- **C116 (a 2-D run).** The triangles returned by a serial 2-D run without smoothing and checks come from the last triangulation: of its
triangles with centroid inside, `clean` are exactly those that do not touch the boundary or have quality at least 0.15; the returned ones are
those of `clean` whose centroid is inside after the boundary vertices have been moved to the level set (vertex numbers unchanged). -/
theorem C116_run {E : Env 2 κ ρ} (hser : E.size = 1) (hrank : E.rank = 0) (henc : Function.Injective E.tools.enc)
    (hrk : Function.Injective E.tools.rk) (hsrt : IsArgsort E.tools.srt) (hpt : 0 < E.tools.ptol)
    (hqual : ∀ vs ws, vs.Perm ws → E.tools.qual vs = E.tools.qual ws)
    (hno : E.opts.subdomainsNone = false ∨ E.opts.meshImprovement = false) (hchk : E.opts.performChecks = false)
    (hdt : ∀ q, InRange (E.dt q).1 (E.dt q).2 ∧ Simplices 3 (E.dt q).2 ∧ (E.dt q).2.Pairwise fun r s => ¬ r.Perm s)
    {n : ℕ} {p0 p : List (Fin 2 → ℝ)} {t : List (List ℕ)} {k : ℕ}
    (hap : ∀ m s, run E m (start p0) = .running s → Apart E.tools.ptol (E.dt s.p).1) (h : run E n (start p0) = .done p t k) :
    ∃ (m : ℕ) (s : State 2) (inside : List (List ℕ)) (pc : List (Fin 2 → ℝ)) (clean : List (List ℕ)), run E m (start p0) = .running s ∧
      (∀ r, r ∈ inside ↔ r ∈ (E.dt s.p).2 ∧ ∃ vs, take (E.dt s.p).1 r = .ok vs ∧
        E.fd (fun k => (vs.map fun v => v k).sum / ((2 : ℝ) + 1)) < -E.geps) ∧
      (∀ r' ∈ clean, ∃ r ∈ inside, ¬ Poor E.tools.qual 2 (E.dt s.p).1 inside 0.15 r ∧ (posns pc r').Perm (posns (E.dt s.p).1 r)) ∧
      (∀ r ∈ inside, ¬ Poor E.tools.qual 2 (E.dt s.p).1 inside 0.15 r → ∃ r' ∈ clean, (posns pc r').Perm (posns (E.dt s.p).1 r)) ∧
      p.length = pc.length ∧
      ∀ r, r ∈ t ↔ r ∈ clean ∧ ∃ vs, take p r = .ok vs ∧ E.fd (fun k => (vs.map fun v => v k).sum / ((2 : ℝ) + 1)) < -(E.h0 * 0.001) := by
  obtain ⟨m, s, t1, hr, hrem, hf⟩ := run_done_serial hser h
  obtain ⟨hin, hsim, hdis⟩ := hdt s.p
  have hap := hap m s hr
  have hsub : t1.Sublist (E.dt s.p).2 := by
    unfold Project.removeOutside at hrem
    cases hk : (E.dt s.p).2.mapM (Project.keeps E.fd E.geps (E.dt s.p).1) with
    | error e => simp [hk, bind, Except.bind] at hrem
    | ok ks =>
      simp only [hk, bind, Except.bind, pure, Except.pure, Except.ok.injEq] at hrem
      rw [← hrem]
      have hlen : ((E.dt s.p).2.zip ks).map Prod.fst = (E.dt s.p).2 := by
        have := (mapM_forall₂.1 hk).length_eq
        rw [List.map_fst_zip]; omega
      refine (List.Sublist.map _ List.filter_sublist).trans ?_
      rw [hlen]
  unfold finish at hf
  rw [hser, hrank] at hf
  simp only [if_true, bind, Except.bind, pure, Except.pure] at hf
  split at hf
  · simp at hf
  rename_i pt hpt'
  obtain ⟨pc, clean⟩ := pt
  simp only at hf
  split at hf
  · simp at hf
  rename_i p3 hp3
  split at hf
  · simp at hf
  rename_i t3 ht3
  simp only [Except.ok.injEq, Prod.mk.injEq] at hf
  obtain ⟨rfl, rfl⟩ := hf
  obtain ⟨h1, h2⟩ := C116_termination henc hrk hsrt hpt hqual hno hchk hap (fun r hr' => hin r (hsub.subset hr'))
    (fun r hr' => hsim r (hsub.subset hr')) (hdis.sublist hsub) hpt'
  exact ⟨m, s, t1, pc, clean, hr, removeOutside_spec hrem, h1, h2, improve_length hp3, removeOutside_spec ht3⟩

/-! ### Success, and the real quality -/

theorem fixed_succeeds {T : Tools d κ ρ} (hrk : Function.Injective T.rk) {p : List (Fin d → ℝ)} (hp : p ≠ []) {t : List (List ℕ)}
    (ht : InRange p t) : ∃ p' t', fixed T p t = .ok (p', t') := by
  cases p with
  | nil => exact absurd rfl hp
  | cons x0 ps =>
    obtain ⟨q, u, jx, hrun, -⟩ := fixMesh_run (keyOf T.enc T.ptol (x0 :: ps)) hrk T.vol hp ht true true
    have hrun' : fixMeshK T.enc T.rk T.vol T.ptol (x0 :: ps) t true true = .ok (q, u, jx) := hrun
    exact ⟨q, u, by simp [fixed, hrun', bind, Except.bind, pure, Except.pure]⟩

/-- `simp_qual` of one triangle, as used in the clean-up. -/
def rowQual (vs : List (Fin 2 → ℝ)) : ℝ :=
  match vs with
  | [a, b, c] => Simplex.triQual a b c
  | _ => 0

theorem length_sub_comm (a b : Fin d → ℝ) : Simplex.length (fun i => a i - b i) = Simplex.length fun i => b i - a i := by
  unfold Simplex.length
  congr 1
  exact Finset.sum_congr rfl fun i _ => by ring

theorem triQual_swap01 (a b c : Fin d → ℝ) : Simplex.triQual b a c = Simplex.triQual a b c := by
  unfold Simplex.triQual
  simp only
  rw [length_sub_comm a b]
  generalize Simplex.length (fun i => b i - a i) = x
  generalize Simplex.length (fun i => c i - a i) = y
  generalize Simplex.length (fun i => c i - b i) = z
  ring_nf

theorem triQual_swap12 (a b c : Fin d → ℝ) : Simplex.triQual a c b = Simplex.triQual a b c := by
  unfold Simplex.triQual
  simp only
  rw [length_sub_comm b c]
  generalize Simplex.length (fun i => b i - a i) = x
  generalize Simplex.length (fun i => c i - a i) = y
  generalize Simplex.length (fun i => c i - b i) = z
  ring_nf

/-- The quality does not depend on the order of the vertices. -/
theorem rowQual_perm {vs ws : List (Fin 2 → ℝ)} (h : vs.Perm ws) : rowQual vs = rowQual ws := by
  have hl := h.length_eq
  by_cases h3 : vs.length = 3
  · have key : ∀ (a b c : Fin 2 → ℝ) (l : List (Fin 2 → ℝ)), [a, b, c].Perm l → rowQual l = Simplex.triQual a b c := by
      intro a b c l hp
      have hm : l ∈ [a, b, c].permutations := List.mem_permutations.2 hp.symm
      simp only [List.permutations, List.permutationsAux, List.permutationsAux.rec, List.permutationsAux2, List.foldr, List.mem_cons,
        List.not_mem_nil, or_false, id] at hm
      rcases hm with rfl | rfl | rfl | rfl | rfl | rfl <;> simp only [rowQual]
      · exact triQual_swap01 _ _ _
      · exact (triQual_swap01 b c a).trans ((triQual_swap12 b a c).trans (triQual_swap01 a b c))
      · exact (triQual_swap12 b a c).trans (triQual_swap01 a b c)
      · exact (triQual_swap01 a c b).trans (triQual_swap12 a b c)
      · exact triQual_swap12 _ _ _
    match vs, h3, h with
    | [a, b, c], _, h => rw [key a b c ws h]; rfl
  · have : ∀ l : List (Fin 2 → ℝ), l.length ≠ 3 → rowQual l = 0 := by
      intro l hl
      match l, hl with
      | [], _ => rfl
      | [_], _ => rfl
      | [_, _], _ => rfl
      | [_, _, _], h => exact absurd rfl h
      | _ :: _ :: _ :: _ :: _, _ => rfl
    rw [this vs h3, this ws (by omega)]

/-- **C116 (it succeeds).** Under the hypotheses of `C116_termination`, the clean-up succeeds if at least one triangle is kept. -/
theorem C116_succeeds {T : Tools 2 κ ρ} (henc : Function.Injective T.enc) (hrk : Function.Injective T.rk) (hsrt : IsArgsort T.srt)
    (hpt : 0 < T.ptol) (hqual : ∀ vs ws, vs.Perm ws → T.qual vs = T.qual ws) {o : TermOpts}
    (hno : o.subdomainsNone = false ∨ o.meshImprovement = false) (hchk : o.performChecks = false)
    {p : List (Fin 2 → ℝ)} {t : List (List ℕ)} (hap : Apart T.ptol p) (hr : InRange p t) (ht : Simplices 3 t)
    (hd : t.Pairwise fun r s => ¬ r.Perm s) {r₀ : List ℕ} (hr₀ : r₀ ∈ t) (hgood : ¬ Poor T.qual 2 p t 0.15 r₀) :
    ∃ p' t', termination T 0 1 false o p t = .ok (p', t') := by
  have hp : p ≠ [] := by
    rintro rfl
    obtain ⟨a, b, c, rfl⟩ := length3 (ht r₀ hr₀).1
    simpa using hr _ hr₀ a (by simp)
  obtain ⟨p2, t2, h1⟩ := fixed_succeeds hrk hp hr
  obtain ⟨hs1, hsub1, hn1, hin1, hus1, hd1⟩ := fixed_same henc hrk hpt hap (fun _ h => h) h1
  have ht2 : Simplices 3 t2 := by
    intro r' hr'
    obtain ⟨r, hr0, hp⟩ := hs1.1 r' hr'
    have hl : r'.length = r.length := by simpa [posns] using hp.length_eq
    refine ⟨by rw [hl, (ht r hr0).1], ?_⟩
    have : (posns p2 r').Nodup := by
      refine hp.nodup_iff.2 ?_
      unfold posns
      refine (List.nodup_map_iff_inj_on (ht r hr0).2).2 fun i hi j hj e => ?_
      exact (List.getElem?_inj (hr r hr0 i hi) hap.1).1 e
    exact List.Nodup.of_map _ this
  obtain ⟨r2, hr2, hp1⟩ := hs1.2 r₀ hr₀
  have hp2 : p2 ≠ [] := by
    rintro rfl
    obtain ⟨a, b, c, rfl⟩ := length3 (ht2 r2 hr2).1
    simpa using hin1 _ hr2 a (by simp)
  obtain ⟨p3, t3, h2, hx1, hx2⟩ := C37_exact (keyOf T.enc T.ptol p2) hrk T.vol T.qual hsrt hp2 (Or.inl rfl) ht2
    (fun v => ⟨fun hv => hus1 v hv, fun ⟨r, hr, hv⟩ => hin1 r hr v hv⟩) (hap.key hpt henc hsub1) (0.15 : ℝ)
  have hsame' : SameCells p2 t2 p t := by
    refine ⟨fun r hr0 => ?_, fun r' hr' => ?_⟩
    · obtain ⟨r', hr', hp⟩ := hs1.2 r hr0
      exact ⟨r', hr', hp.symm⟩
    · obtain ⟨r, hr0, hp⟩ := hs1.1 r' hr'
      exact ⟨r, hr0, hp.symm⟩
  obtain ⟨r3, hr3, hp3⟩ := hx2 r2 hr2 fun hpoor =>
    hgood (poor_same hn1 hap.1 hin1 hr hd1 hd hsame' hqual hr₀ hp1.symm hpoor)
  have hin3 : InRange p3 t3 := by
    intro r' hr' i hi
    obtain ⟨r, hr0, -, hp⟩ := hx1 r' hr'
    by_contra hge
    have hnone : (none : Option (Fin 2 → ℝ)) ∈ posns p3 r' :=
      List.mem_map.2 ⟨i, hi, by rw [List.getElem?_eq_none_iff]; omega⟩
    obtain ⟨j, hj, e⟩ := List.mem_map.1 (hp.subset hnone)
    rw [List.getElem?_eq_none_iff] at e
    have := hin1 r hr0 j hj
    omega
  have hp3' : p3 ≠ [] := by
    rintro rfl
    have hl : r3.length = 3 := by
      have := hp3.length_eq
      simp only [List.length_map] at this
      rw [this, (ht2 r2 hr2).1]
    obtain ⟨a, b, c, rfl⟩ := length3 hl
    simpa using hin3 _ hr3 a (by simp)
  obtain ⟨p4, t4, h4⟩ := fixed_succeeds hrk hp3' hin3
  refine ⟨p4, t4, ?_⟩
  have hsm : (o.subdomainsNone && o.meshImprovement) = false := by
    rcases hno with h | h <;> simp [h]
  have hc : cleanup2 T o p t = .ok (p3, t3) := by
    unfold cleanup2
    simp only [h1, h2, hsm, Bool.false_eq_true, if_false, bind, Except.bind, pure, Except.pure]
  unfold termination
  simp [hc, hchk, h4, bind, Except.bind, pure, Except.pure]

/-- The hypotheses hold for the 3-4-5 triangle with the real quality (0.8), the default tolerance of `fix_mesh` and smoothing switched off. -/
example : ∃ (T : Tools 2 (List ℝ) (List ℕ)) (p : List (Fin 2 → ℝ)), T.qual = rowQual ∧ T.ptol = 2e-13 ∧
    Function.Injective T.enc ∧ Function.Injective T.rk ∧ IsArgsort T.srt ∧ Apart T.ptol p ∧ InRange p [[0, 1, 2]] ∧ Simplices 3 [[0, 1, 2]] ∧
    ¬ Poor T.qual 2 p [[0, 1, 2]] 0.15 [0, 1, 2] ∧ ∃ p' t', termination T 0 1 false ⟨true, false, false⟩ p [[0, 1, 2]] = .ok (p', t') := by
  let T : Tools 2 (List ℝ) (List ℕ) := ⟨fun q => [q 0, q 1], id, fun _ => 1, rowQual, fun l => l.insertionSort fun a b => a.1 ≤ b.1,
    2e-13, fun _ _ b => b, fun p t => .ok (p, t), fun p t => .ok (p, t)⟩
  have henc : Function.Injective T.enc := by
    intro a b h
    have h' : a 0 = b 0 ∧ a 1 = b 1 := by simpa [T] using h
    funext i
    fin_cases i
    · exact h'.1
    · exact h'.2
  have hap : Apart T.ptol [![0, 0], ![3, 0], (![0, 4] : Fin 2 → ℝ)] := by
    have e1 : (![0, 0] : Fin 2 → ℝ) ≠ ![3, 0] := fun h => by have := congrFun h 0; simp at this
    have e2 : (![0, 0] : Fin 2 → ℝ) ≠ ![0, 4] := fun h => by have := congrFun h 1; simp at this
    have e3 : (![3, 0] : Fin 2 → ℝ) ≠ ![0, 4] := fun h => by have := congrFun h 1; simp at this
    refine ⟨by simp [e1, e2, e3], 4, ?_, ?_⟩
    · intro x hx y hy k
      simp only [List.mem_cons, List.not_mem_nil, or_false] at hx hy
      rcases hx with rfl | rfl | rfl <;> rcases hy with rfl | rfl | rfl <;> fin_cases k <;> norm_num
    · intro x hx y hy hne
      simp only [List.mem_cons, List.not_mem_nil, or_false] at hx hy
      rcases hx with rfl | rfl | rfl <;> rcases hy with rfl | rfl | rfl <;>
        first
          | exact absurd rfl hne
          | (refine ⟨0, ?_⟩; norm_num [T]; done)
          | (refine ⟨1, ?_⟩; norm_num [T]; done)
  have hin : InRange [![0, 0], ![3, 0], (![0, 4] : Fin 2 → ℝ)] [[0, 1, 2]] := by
    intro r hr; simp at hr; subst hr; simp
  have hs : Simplices 3 [[0, 1, 2]] := by intro r hr; simp at hr; subst hr; simp
  have hl1 : Simplex.length (fun i => (![3, 0] : Fin 2 → ℝ) i - (![0, 0] : Fin 2 → ℝ) i) = 3 := by
    unfold Simplex.length
    rw [show (∑ i, ((![3, 0] : Fin 2 → ℝ) i - (![0, 0] : Fin 2 → ℝ) i) ^ 2) = 3 ^ 2 by simp [Fin.sum_univ_two]]
    exact Real.sqrt_sq (by norm_num)
  have hl2 : Simplex.length (fun i => (![0, 4] : Fin 2 → ℝ) i - (![0, 0] : Fin 2 → ℝ) i) = 4 := by
    unfold Simplex.length
    rw [show (∑ i, ((![0, 4] : Fin 2 → ℝ) i - (![0, 0] : Fin 2 → ℝ) i) ^ 2) = 4 ^ 2 by simp [Fin.sum_univ_two]]
    exact Real.sqrt_sq (by norm_num)
  have hl3 : Simplex.length (fun i => (![0, 4] : Fin 2 → ℝ) i - (![3, 0] : Fin 2 → ℝ) i) = 5 := by
    unfold Simplex.length
    rw [show (∑ i, ((![0, 4] : Fin 2 → ℝ) i - (![3, 0] : Fin 2 → ℝ) i) ^ 2) = 5 ^ 2 by simp [Fin.sum_univ_two]; norm_num]
    exact Real.sqrt_sq (by norm_num)
  have hq : Simplex.triQual (![0, 0] : Fin 2 → ℝ) ![3, 0] ![0, 4] = 4 / 5 := by
    unfold Simplex.triQual
    simp only [hl1, hl2, hl3]
    rw [show ((4 : ℝ) + 5 - 3) * (5 + 3 - 4) * (3 + 4 - 5) / (3 + 4 + 5) = 2 ^ 2 by norm_num,
      show ((3 : ℝ) + 4 + 5) * (4 + 5 - 3) * (5 + 3 - 4) * (3 + 4 - 5) = 24 ^ 2 by norm_num,
      Real.sqrt_sq (by norm_num), Real.sqrt_sq (by norm_num)]
    norm_num
  have hgood : ¬ Poor T.qual 2 [![0, 0], ![3, 0], (![0, 4] : Fin 2 → ℝ)] [[0, 1, 2]] 0.15 [0, 1, 2] := by
    rintro ⟨-, vs, hvs, hlt⟩
    have hvs' : vs = [![0, 0], ![3, 0], ![0, 4]] := by
      have : [![0, 0], ![3, 0], (![0, 4] : Fin 2 → ℝ)].map some = vs.map some := by rw [← hvs]; rfl
      exact ((List.map_injective_iff.2 (Option.some_injective _)) this).symm
    subst hvs'
    have hlt' : Simplex.triQual (![0, 0] : Fin 2 → ℝ) ![3, 0] ![0, 4] < 0.15 := hlt
    rw [hq] at hlt'
    norm_num at hlt'
  refine ⟨T, _, rfl, rfl, henc, fun _ _ h => h, isArgsort_insertionSort, hap, hin, hs, hgood, ?_⟩
  exact C116_succeeds henc (fun _ _ h => h) isArgsort_insertionSort (by norm_num [T]) (fun _ _ h => rowQual_perm h) (Or.inr rfl) rfl hap hin hs
    (by simp) (List.mem_singleton.2 rfl) hgood

end

end SM.MeshLoop
