import Verif.Props.InitPoints
import Verif.Model.Parallel
import Verif.Lemmas.Confluence
import Verif.Props.Ghost
import Verif.Props.Distribute
import Verif.Props.Exchange
import Verif.Props.WhereTo

/-!
# C76, C77, C78: `generate_mesh` on several processes
-/

namespace SM.Parallel

open Mpi Np MeshLoop Distribute

variable {d : ℕ}

/-! ## Sequencing -/

theorem seq {M R S : Type} {P : ℕ} {f : ℕ → Proc M R} {x : ℕ → R} {k : ℕ → R → Proc M S} {g : ℕ → Proc M S}
    (h1 : PReach P f fun r => .ret (x r)) (h2 : PReach P (fun r => k r (x r)) g) : PReach P (fun r => (f r).bind (k r)) g :=
  (h1.bind k).trans h2

/-- A part without communication. -/
theorem lift_run {M R : Type} {P : ℕ} {e : ℕ → Except String R} {x : ℕ → R} (h : ∀ r < P, e r = .ok (x r)) :
    PReach P (fun r => (lift (e r) : Proc M R)) fun r => .ret (x r) :=
  .refl fun r hr => by rw [h r hr]; rfl

theorem embed_lift {M M' R : Type} {inj : M → M'} {prj : M' → Option M} (e : Except String R) :
    (lift e : Proc M R).embed inj prj = lift e := by cases e <;> rfl

theorem embed_bind {M M' R S : Type} {inj : M → M'} {prj : M' → Option M} (x : Proc M R) (f : R → Proc M S) :
    (x.bind f).embed inj prj = (x.embed inj prj).bind fun a => (f a).embed inj prj := by
  induction x with
  | ret => rfl
  | raised => rfl
  | send d t m k ih => simp [Proc.bind, Proc.embed, ih]
  | wait d t i k ih => simp [Proc.bind, Proc.embed, ih]
  | recv a t k ih =>
    simp only [Proc.bind, Proc.embed]
    congr 1
    funext m'
    cases prj m' with
    | none => rfl
    | some m => exact ih m
  | coll n m k ih =>
    simp only [Proc.bind, Proc.embed]
    congr 1
    funext l
    cases l.mapM prj with
    | none => rfl
    | some m => exact ih m
  | inColl j n k ih =>
    simp only [Proc.bind, Proc.embed]
    congr 1
    funext l
    cases l.mapM prj with
    | none => rfl
    | some m => exact ih m

/-! ## `localize_sizing_function` -/

theorem spreadFn_none (loc : ℕ → (Fin d → ℝ) → ℝ) {rank : ℕ} (h0 : rank ≠ 0) (rs : List ℕ) (hr : rank ∉ rs) (f : Option ((Fin d → ℝ) → ℝ)) :
    spreadFn loc rank rs f = .ret f := by
  induction rs with
  | nil => rfl
  | cons r rs ih =>
    rw [List.mem_cons, not_or] at hr
    rw [spreadFn, if_neg h0, if_neg hr.1, ih hr.2]

theorem spreadFn_self (loc : ℕ → (Fin d → ℝ) → ℝ) {rank : ℕ} (h0 : rank ≠ 0) (rs : List ℕ) (hr : rank ∈ rs) (hn : rs.Nodup) (f : Option ((Fin d → ℝ) → ℝ)) :
    spreadFn loc rank rs f = .recv 0 11 fun m => (lift m.toFn).bind fun g => .ret (some g) := by
  induction rs with
  | nil => cases hr
  | cons r rs ih =>
    rw [List.nodup_cons] at hn
    by_cases h : rank = r
    · subst h
      rw [spreadFn, if_neg h0, if_pos rfl]
      simp only [bind, recv, Proc.bind]
      congr 1
      funext m
      congr 1
      funext g
      exact spreadFn_none loc h0 rs hn.1 _
    · rw [spreadFn, if_neg h0, if_neg h, ih ((List.mem_cons.1 hr).resolve_left h) hn.2]

theorem spreadFn_run (loc : ℕ → (Fin d → ℝ) → ℝ) {P : ℕ} (hP : 1 ≤ P) (q : ℕ) (hq : q + 1 ≤ P) : PReach P
    (fun r => spreadFn loc r (List.range P) none)
    (fun r => if r = 0 then spreadFn loc 0 (List.range' (q + 1) (P - 1 - q)) (some (loc 0))
      else if r ≤ q then .ret (some (loc r)) else .recv 0 11 fun m => (lift m.toFn).bind fun g => .ret (some g)) := by
  induction q with
  | zero =>
    refine .refl fun r hr => ?_
    by_cases h : r = 0
    · subst h
      have : List.range P = 0 :: List.range' 1 (P - 1) := by
        rw [List.range_eq_range', show P = P - 1 + 1 by omega, List.range'_succ]; simp
      rw [this, spreadFn]
      simp
    · rw [if_neg h, if_neg (by omega), spreadFn_self loc h _ (List.mem_range.2 hr) List.nodup_range]
  | succ q ih =>
    refine (ih (by omega)).trans ?_
    have hr : List.range' (q + 1) (P - 1 - q) = (q + 1) :: List.range' (q + 2) (P - 1 - (q + 1)) := by
      rw [show P - 1 - q = (P - 1 - (q + 1)) + 1 by omega, List.range'_succ]
    refine PReach.transfer (a := 0) (b := q + 1) (t := 11) (m := .fn (loc (q + 1))) (ka := spreadFn loc 0 (List.range' (q + 2) (P - 1 - (q + 1))) (some (loc 0)))
      (kb := fun m => (lift m.toFn).bind fun g => .ret (some g)) (by omega) (by omega) (by omega) ?_ ?_ ?_ ?_ ?_
    · simp only [if_true]
      rw [hr, spreadFn]
      simp [bind, send, Proc.bind]
    · rw [if_neg (by omega), if_neg (by omega)]
    · simp
    · rw [if_neg (by omega), if_pos (le_refl _)]; rfl
    · intro r _ h1 h2
      have : r ≤ q + 1 ↔ r ≤ q := by omega
      simp only [if_neg h1, this]

theorem localizeSizing_run (loc : ℕ → (Fin d → ℝ) → ℝ) {P : ℕ} (hP : 1 ≤ P) : PReach P (fun r => localizeSizing loc P r) fun r => .ret (loc r) := by
  refine seq (x := fun r => some (loc r)) ((spreadFn_run loc hP (P - 1) (by omega)).trans (.refl fun r hr => ?_)) (.refl fun r hr => rfl)
  by_cases h : r = 0
  · subst h; simp [spreadFn, pure]
  · rw [if_neg h, if_pos (by omega)]

/-! ## `_form_extents` and `allreduce` -/

theorem bcastExt_run {P root : ℕ} (hroot : root < P) (e : ℕ → List ℝ) : PReach P (fun r => (bcastExt root (e r) : Proc (Msg d) (List ℝ))) fun _ => .ret (e root) := by
  refine PReach.collective (need := fun _ => [root]) (m := fun r => .ext (e r)) (k := fun _ l => (single l).bind fun m => lift m.toExt) (fun r _ => rfl) ?_ ?_
  · intro r _ i hi; rw [List.mem_singleton.1 hi]; exact hroot
  · intro r _; rfl

theorem gatherExt_run {P : ℕ} (e : ℕ → List ℝ) (rs : List ℕ) (hrs : ∀ r ∈ rs, r < P) :
    PReach P (fun r => (gatherExt (e r) rs : Proc (Msg d) (List (List ℝ)))) fun _ => .ret (rs.map e) := by
  induction rs with
  | nil => exact .refl fun _ _ => rfl
  | cons r rs ih =>
    refine seq (bcastExt_run (hrs r (by simp)) e) ?_
    refine seq (ih fun r hr => hrs r (by simp [hr])) ?_
    exact .refl fun _ _ => rfl

theorem mapM_num (l : List ℝ) : ((l.map fun x => (Msg.num x : Msg d)).mapM Msg.toNum) = .ok l := by
  induction l with
  | nil => rfl
  | cons x l ih => simp only [List.map_cons, List.mapM_cons, Msg.toNum, ih, bind, Except.bind, pure, Except.pure]

theorem allreduceMin_run {P : ℕ} {x : ℕ → ℝ} {m : ℝ} (h : Init.minOf ((List.range P).map x) = .ok m) :
    PReach P (fun r => (allreduceMin P (x r) : Proc (Msg d) ℝ)) fun _ => .ret m := by
  refine PReach.collective (need := fun _ => List.range P) (m := fun r => .num (x r)) (fun r _ => rfl) (fun _ _ i hi => List.mem_range.1 hi) fun r _ => ?_
  have : (List.range P).map (fun r => (Msg.num (x r) : Msg d)) = ((List.range P).map x).map Msg.num := by rw [List.map_map]; rfl
  rw [this, mapM_num]
  simp only [bind, Except.bind, h, lift]

/-! ## Initial points -/

/-- The size function used by rank `r`: the user's, or, if it comes from a `SizeFunction`, its local interpolant. -/
noncomputable def sizeOn (I : Init.Input d) (P r : ℕ) : (Fin d → ℝ) → ℝ := if I.lsf then localFn (I.fh 0) I.h0 I.bbox I.axis P r else I.fh 0

/-- The input with that size function on every rank. -/
noncomputable def onRanks (I : Init.Input d) (P : ℕ) : Init.Input d := { I with fh := sizeOn I P }

theorem mapM_get {α β : Type} {f : α → Except String β} {l : List α} {ys : List β} (h : l.mapM f = .ok ys) :
    ys.length = l.length ∧ ∀ (i : ℕ) (x : α) , l[i]? = some x → ∃ y, ys[i]? = some y ∧ f x = .ok y := by
  induction l generalizing ys with
  | nil => simp [pure, Except.pure] at h; subst h; simp
  | cons a l ih =>
    simp only [List.mapM_cons, bind, Except.bind, pure, Except.pure] at h
    split at h
    · cases h
    rename_i y hy
    split at h
    · cases h
    rename_i ys' hys
    cases h
    obtain ⟨h1, h2⟩ := ih hys
    refine ⟨by simp [h1], ?_⟩
    rintro (- | i) x hx
    · simp only [List.getElem?_cons_zero, Option.some.injEq] at hx ⊢
      subst hx; exact ⟨y, rfl, hy⟩
    · simpa using h2 i x (by simpa using hx)

/-- Points and extents of all ranks: what every rank ends up with. -/
theorem generatePoints_run {I : Init.Input d} {P : ℕ} (hP : 1 ≤ P) {ps : List (List (Fin d → ℝ))} {es : List ((Fin d → ℝ) × (Fin d → ℝ))}
    (hps : Init.parallelPoints (onRanks I P) P = .ok ps) (hes : Init.formExtents I.h0 I.axis ps = .ok es) :
    PReach P (fun r => generatePoints I P r) fun r => .ret (sizeOn I P r, ps.getD r [], es.map flatExt) := by
  simp only [Init.parallelPoints, bind, Except.bind, pure, Except.pure] at hps
  split at hps
  · cases hps
  rename_i cs hcs
  split at hps
  · cases hps
  rename_i ms hms
  split at hps
  · cases hps
  rename_i m hm
  cases hps
  obtain ⟨lc, gc⟩ := mapM_get hcs
  obtain ⟨lm, gm⟩ := mapM_get hms
  obtain ⟨le, ge⟩ := mapM_get hes
  simp only [List.length_range, List.length_zipIdx, List.length_map] at lc lm le
  have hc : ∀ r < P, Init.candidates I P r = .ok (cs.getD r []) := by
    intro r hr
    obtain ⟨y, hy, hy'⟩ := gc r r (List.getElem?_range hr)
    have : Init.candidates I P r = .ok y := hy'
    rw [this, List.getD, hy]; rfl
  have hcz : ∀ r < P, cs.zipIdx[r]? = some (cs.getD r [], r) := by
    intro r hr
    obtain ⟨y, hy, -⟩ := gc r r (List.getElem?_range hr)
    rw [List.getElem?_zipIdx, hy, List.getD, hy]; simp
  have hmr : ∀ r < P, Init.localR0m I.r0mIsH0 I.h0 ((cs.getD r []).map (sizeOn I P r)) = .ok (ms.getD r 0) := by
    intro r hr
    obtain ⟨y, hy, hy'⟩ := gm r _ (hcz r hr)
    rw [show ms.getD r 0 = y by rw [List.getD, hy]; rfl]; exact hy'
  have hms' : (List.range P).map (fun r => ms.getD r 0) = ms := by
    apply List.ext_getElem? 
    intro i
    by_cases hi : i < P
    · simp only [List.getElem?_map, List.getElem?_range hi, Option.map_some]
      rw [List.getD, List.getElem?_eq_getElem (by omega)]; rfl
    · rw [List.getElem?_eq_none (by simp; omega), List.getElem?_eq_none (by omega)]
  have hp : ∀ r < P, (cs.zipIdx.map fun pr => Init.rankPoints (onRanks I P) m pr.1 pr.2)[r]? =
      some (I.pfix ++ Init.reject I.rand m (sizeOn I P r) (cs.getD r [])) := by
    intro r hr
    rw [List.getElem?_map, hcz r hr]; rfl
  have hext : ∀ r < P, Init.extentOf I.h0 I.axis (I.pfix ++ Init.reject I.rand m (sizeOn I P r) (cs.getD r [])) = .ok (es.getD r (0, 0)) := by
    intro r hr
    obtain ⟨y, hy, hy'⟩ := ge r _ (hp r hr)
    rw [show es.getD r (0, 0) = y by rw [List.getD, hy]; rfl]; exact hy'
  have hes' : (List.range P).map (fun r => flatExt (es.getD r (0, 0))) = es.map flatExt := by
    apply List.ext_getElem?
    intro i
    by_cases hi : i < P
    · simp only [List.getElem?_map, List.getElem?_range hi, Option.map_some]
      rw [List.getD, List.getElem?_eq_getElem (by omega)]; rfl
    · rw [List.getElem?_eq_none (by simp; omega), List.getElem?_eq_none (by simp; omega)]
  refine seq (x := sizeOn I P) ?_ ?_
  · unfold sizeOn
    split
    · exact localizeSizing_run _ hP
    · exact .refl fun _ _ => rfl
  refine seq (lift_run hc) ?_
  refine seq (lift_run hmr) ?_
  refine seq (allreduceMin_run (m := m) (by rw [hms']; exact hm)) ?_
  refine seq (lift_run hext) ?_
  refine seq (gatherExt_run (fun r => flatExt (es.getD r (0, 0))) (List.range P) fun r hr => List.mem_range.1 hr) ?_
  refine .refl fun r hr => ?_
  have : (cs.zipIdx.map fun pr => Init.rankPoints (onRanks I P) m pr.1 pr.2).getD r [] = I.pfix ++ Init.reject I.rand m (sizeOn I P r) (cs.getD r []) := by
    rw [List.getD, hp r hr]; rfl
  rw [hes', this]
  rfl

/-- The same for user-defined points. -/
theorem userDefined_run {I : Init.Input d} {eps : ℝ} {points : List (Fin d → ℝ)} {P : ℕ} (hP : 2 ≤ P) {blocks : List (List (Fin d → ℝ))} {es : List (List ℝ)}
    (hb : Blocker.blocker eps points P I.axis = .ok (blocks, es)) (hlen : P ≤ blocks.length) :
    PReach P (fun r => userDefined I eps points P r) fun r => .ret (localFn (I.fh 0) I.h0 I.bbox I.axis P r, blocks.getD r [], es) := by
  refine seq (x := fun r => if r = 0 then (blocks, some es) else ([], none)) (.refl fun r hr => ?_) ?_
  · by_cases h : r = 0
    · subst h
      simp only [if_true, hb, lift, bind, Proc.bind, pure]
    · simp only [if_neg h, pure]
  refine seq (localizeSizing_run _ (by omega)) ?_
  have := (localize_run P blocks es (fun r => (if r = 0 then (blocks, some es) else ([], none)).1) (fun r => (if r = 0 then (blocks, some es) else ([], none)).2)
    hP hlen rfl rfl).embed (inj := (Msg.parcel : _ → Msg d)) (prj := Msg.toParcel) (fun _ => rfl)
  refine seq (x := fun r => (blocks.getD r [], some es)) (this.trans (.refl fun r hr => rfl)) ?_
  exact .refl fun _ _ => rfl

/-! ## The loop -/

section loop
variable {κ ρ : Type} [LinearOrder κ] [LinearOrder ρ] (W : World d κ ρ) (P : ℕ) (fh : ℕ → (Fin d → ℝ) → ℝ) (extents : List (List ℝ))
  (box : ℕ → WhereTo.Box d ℝ × WhereTo.Box d ℝ)

/-- Vertices and cells of rank `r`'s own triangulation. -/
noncomputable def ownMesh (s : State d) : List (Fin d → ℝ) × List (List ℕ) := (DtWrapper.getTopology (triangulate W s.p)).1

/-- The coordinates rank `r` exports to the rank below (`b = false`) or above (`b = true`). -/
noncomputable def exportsOf (s : ℕ → State d) (b : Bool) (r : ℕ) : List (List ℝ) :=
  WhereTo.exportedPoints W.G (box r).1 (box r).2 (ownMesh W (s r)).1 (ownMesh W (s r)).2 b

/-- Every rank has something to export to each of its neighbours. -/
def Talks (s : ℕ → State d) : Prop :=
  (∀ r < P, r ≠ 0 → exportsOf W box s false r ≠ []) ∧ ∀ r, r + 1 < P → exportsOf W box s true r ≠ []

/-- The outcome of `_add_ghost_vertices` on rank `r` if the exports arrive: the points from above, then those from below. -/
noncomputable def ghosts (s : ℕ → State d) (r : ℕ) : Except String (List (Fin d → ℝ) × List (List ℕ) × List ℕ × ℕ) :=
  Ghost.absorb W.C W.sd extents r (DtWrapper.getTopology (triangulate W (s r).p)).2
    (Exchange.incoming P (exportsOf W box s false) (exportsOf W box s true) r)

/-- The serial environment of rank `r` in a pass that all ranks begin with the states `s`. -/
noncomputable def envAt (s : ℕ → State d) (r : ℕ) (agg : List (Fin d → ℝ) × List (List ℕ)) : Env d κ ρ :=
  envWith W P r (fh r) (ghosts W P extents box s r) agg

/-- All ranks together, pass by pass: `Together n s out` says that `n` passes started in the states `s` end with `out`. Every rank does the serial
step (`MeshLoop.step`) with the points its neighbours export in the same pass; in the last pass rank 0 goes on with the collected meshes. -/
inductive Together : ℕ → (ℕ → State d) → (ℕ → Result d) → Prop
  | stop (s : ℕ → State d) : Together 0 s fun r => .running (s r)
  | next {n : ℕ} {s s' : ℕ → State d} {out : ℕ → Result d} (ht : Talks W P box s)
      (hs : ∀ r < P, step (envAt W P fh extents box s r ([], [])) (s r) = .running (s' r)) (h : Together n s' out) : Together (n + 1) s out
  | last {n : ℕ} {s : ℕ → State d} {p p' : ℕ → List (Fin d → ℝ)} {t t' : ℕ → List (List ℕ)} {rest : ℕ → List ℕ × List ℕ × ℕ}
      {pf : List (Fin d → ℝ)} {tf : List (List ℕ)} {tri : ℕ} (ht : Talks W P box s)
      (hc : ∀ r < P, ((s r).count : ℝ) = W.E.maxIter - 1)
      (htop : ∀ r < P, topology (envAt W P fh extents box s r ([], [])) (s r) = .ok (p r, t r, rest r))
      (hfix : ∀ r < P, fixed W.E.tools (p r) (t r) = .ok (p' r, t' r))
      (hs : step (envAt W P fh extents box s 0 (allPoints P p', allCells P p' t')) (s 0) = .done pf tf tri) :
      Together (n + 1) s fun r => if r = 0 then .mesh pf tf else .flags

variable {W P fh extents box}

theorem addGhost_run (hd : 1 ≤ d) (hP : 2 ≤ P) (hbox : ∀ r < P, WhereTo.neighbours extents r P = .ok (box r)) {s : ℕ → State d} (ht : Talks W P box s) :
    PReach P (fun r => (Ghost.addGhost W.C W.G W.junk W.sd extents r P (DtWrapper.getTopology (triangulate W (s r).p)).2 (ownMesh W (s r)).1
        (ownMesh W (s r)).2).embed Msg.rows Msg.toRows) fun r => (lift (ghosts W P extents box s r) : Proc (Msg d) _) := by
  have h := (Exchange.exchange_run P (exportsOf W box s false) (exportsOf W box s true)
    (fun r recv => (lift (Ghost.absorb W.C W.sd extents r (DtWrapper.getTopology (triangulate W (s r).p)).2 recv) : Proc (List (List ℝ)) _)) hP).embed
    (inj := (Msg.rows : _ → Msg d)) (prj := Msg.toRows) (fun _ => rfl)
  refine PReach.trans (.refl fun r hr => ?_) (h.trans (.refl fun r hr => by rw [embed_lift]; rfl))
  have hpk : Exchange.Packed d (WhereTo.whereTo W.G W.junk (ownMesh W (s r)).1 (ownMesh W (s r)).2 (box r).1 (box r).2) (exportsOf W box s false r)
      (exportsOf W box s true r) := WhereTo.C67_unpacks hd W.G W.junk _ _ _ _
  rw [← Exchange.body_bind P _ _ _ r hr (ht.1 r hr) (ht.2 r) hP, ← Exchange.exchange_packed (rank := r) (size := P) (dim := d) hpk]
  simp only [Ghost.addGhost, WhereTo.enqueue, hbox r hr, bind, Except.bind, pure, Except.pure, lift, Proc.bind]

theorem topology_ok {E : Env d κ ρ} {s : State d} (hE : 1 < E.size) {x : List (Fin d → ℝ) × List (List ℕ) × List ℕ × List ℕ × ℕ} (h : topology E s = .ok x) :
    (∃ ifix, E.pfix.mapM (closestNode (E.dt s.p).1) = .ok ifix) ∧ ∃ g, E.ghost s.count (E.dt s.p).1 (E.dt s.p).2 = .ok g := by
  simp only [topology, bind, Except.bind, pure, Except.pure, gt_iff_lt, if_pos hE] at h
  split at h
  · cases h
  rename_i ifix hi
  refine ⟨⟨ifix, hi⟩, ?_⟩
  split at h
  · cases h
  rename_i g hg
  exact ⟨g, hg⟩

/-- A pass up to the topology. -/
theorem pass_head (hd : 1 ≤ d) (hP : 2 ≤ P) (hbox : ∀ r < P, WhereTo.neighbours extents r P = .ok (box r)) {s : ℕ → State d} (ht : Talks W P box s)
    {top : ℕ → List (Fin d → ℝ) × List (List ℕ) × List ℕ × List ℕ × ℕ}
    (htop : ∀ r < P, topology (envAt W P fh extents box s r ([], [])) (s r) = .ok (top r))
    {R : Type} (k : ℕ → _ → _ → Proc (Msg d) R) {out : ℕ → Proc (Msg d) R}
    (hk : ∀ g : ℕ → _, (∀ r < P, ghosts W P extents box s r = .ok (g r)) → PReach P (fun r => k r (g r) (top r)) out) :
    PReach P (fun r => (lift (W.E.pfix.mapM (closestNode (ownMesh W (s r)).1))).bind fun _ =>
      ((Ghost.addGhost W.C W.G W.junk W.sd extents r P (DtWrapper.getTopology (triangulate W (s r).p)).2 (ownMesh W (s r)).1 (ownMesh W (s r)).2).embed
        Msg.rows Msg.toRows).bind fun g => (lift (topology (envWith W P r (fh r) (.ok g) ([], [])) (s r))).bind fun top => k r g top) out := by
  have h1 : ∀ r, ∃ ifix, r < P → W.E.pfix.mapM (closestNode (ownMesh W (s r)).1) = .ok ifix := fun r => by
    by_cases hr : r < P
    · obtain ⟨i, hi⟩ := (topology_ok (E := envAt W P fh extents box s r ([], [])) (by exact hP) (htop r hr)).1
      exact ⟨i, fun _ => hi⟩
    · exact ⟨[], fun h => absurd h hr⟩
  have h2 : ∀ r, ∃ g, r < P → ghosts W P extents box s r = .ok g := fun r => by
    by_cases hr : r < P
    · obtain ⟨i, hi⟩ := (topology_ok (E := envAt W P fh extents box s r ([], [])) (by exact hP) (htop r hr)).2
      exact ⟨i, fun _ => hi⟩
    · exact ⟨([], [], [], 0), fun h => absurd h hr⟩
  choose ifix hifix using h1
  choose g hg using h2
  refine seq (lift_run hifix) ?_
  refine seq ((addGhost_run hd hP hbox ht).trans (lift_run hg)) ?_
  refine seq (lift_run (x := top) fun r hr => ?_) (hk g hg)
  rw [← htop r hr, envAt, hg r hr]

theorem step_running {E : Env d κ ρ} {s s' : State d} (h : step E s = .running s') : (s.count : ℝ) ≠ E.maxIter - 1 ∧
    ∃ top p, topology E s = .ok top ∧ move E top.1 top.2.1 top.2.2.1 top.2.2.2.1 top.2.2.2.2 = .ok p ∧ s' = ⟨s.count + 1, p, s.tri + 1⟩ := by
  unfold step at h
  split at h
  · cases h
  rename_i top htop
  split at h
  · split at h <;> cases h
  rename_i hc
  split at h
  · cases h
  rename_i p hp
  cases h
  exact ⟨hc, _, p, htop, hp, rfl⟩

theorem step_done {E : Env d κ ρ} {s : State d} {p : List (Fin d → ℝ)} {t : List (List ℕ)} {tri : ℕ} (h : step E s = .done p t tri) :
    ∃ top, topology E s = .ok top ∧ finish E top.1 top.2.1 = .ok (p, t) := by
  unfold step at h
  split at h
  · cases h
  rename_i top htop
  split at h
  · split at h
    · cases h
    rename_i p' t' hf
    cases h
    exact ⟨_, htop, hf⟩
  · split at h <;> cases h

theorem topology_agg (r : ℕ) (g : Except String (List (Fin d → ℝ) × List (List ℕ) × List ℕ × ℕ)) (f : (Fin d → ℝ) → ℝ) (agg : List (Fin d → ℝ) × List (List ℕ)) (s : State d) :
    topology (envWith W P r f g agg) s = topology (envWith W P r f g ([], [])) s := rfl

theorem passes_run (hd : 1 ≤ d) (hP : 2 ≤ P) (hbox : ∀ r < P, WhereTo.neighbours extents r P = .ok (box r)) {n : ℕ} {s : ℕ → State d} {out : ℕ → Result d}
    (h : Together W P fh extents box n s out) : PReach P (fun r => passes W P r (fh r) extents n (s r)) fun r => .ret (out r) := by
  induction h with
  | stop s => exact .refl fun _ _ => rfl
  | @next n s s' out ht hs _ ih =>
    have h1 : ∀ r, ∃ top p, r < P → topology (envAt W P fh extents box s r ([], [])) (s r) = .ok top ∧
        move (envAt W P fh extents box s r ([], [])) top.1 top.2.1 top.2.2.1 top.2.2.2.1 top.2.2.2.2 = .ok p ∧ s' r = ⟨(s r).count + 1, p, (s r).tri + 1⟩ := fun r => by
      by_cases hr : r < P
      · obtain ⟨-, top, p, h⟩ := step_running (hs r hr)
        exact ⟨top, p, fun _ => h⟩
      · exact ⟨([], [], [], [], 0), [], fun h => absurd h hr⟩
    choose top p htp using h1
    refine seq (R := Result d) (x := fun r => Result.running (s' r)) ?_ (PReach.trans (.refl fun r _ => rfl) ih)
    refine pass_head hd hP hbox ht (fun r hr => (htp r hr).1) _ fun g hg => ?_
    refine PReach.trans (.refl fun r hr => ?_) (seq (lift_run (x := p) fun r hr => (htp r hr).2.1) (.refl fun r hr => ?_)
      (k := fun r p => pure (.running ⟨(s r).count + 1, p, (s r).tri + 1⟩)))
    · have hcr : ((s r).count : ℝ) ≠ W.E.maxIter - 1 := (step_running (hs r hr)).1
      rw [if_neg hcr, envAt, hg r hr]; rfl
    · rw [(htp r hr).2.2]; rfl
  | @last n s p p' t t' rest pf tf tri ht hc htop hfix hs =>
    refine seq (R := Result d) (x := fun r => if r = 0 then Result.mesh pf tf else .flags) ?_ (.refl fun r _ => by by_cases h : r = 0 <;> simp [h, pure])
    refine pass_head hd hP hbox ht htop _ fun g hg => ?_
    refine PReach.trans (.refl fun r hr => if_pos (hc r hr)) ?_
    refine seq ((aggregate_run (fixed W.E.tools) P p p' t t' (by omega) hfix).embed (inj := (Msg.pay : _ → Msg d)) (prj := Msg.toPay) fun _ => rfl) (.refl fun r hr => ?_)
    by_cases h0 : r = 0
    · subst h0
      obtain ⟨top, h1, h2⟩ := step_done hs
      have h1' := htop 0 (by omega)
      rw [envAt, topology_agg] at h1
      rw [envAt, h1] at h1'
      cases h1'
      simp only [if_true]
      rw [envAt, hg 0 (by omega)] at h2
      simp only [h2, lift, bind, Proc.bind, pure]
    · simp only [if_neg h0, pure]

end loop

/-- **C71 (transfer).** `localize_sizing_function`, called by all `P` ranks, completes under every schedule, and rank `r` receives the
interpolant formed for its own slab; so what C71 says of that interpolant holds of the function the rank uses. -/
theorem C71_transfer (fh : (Fin d → ℝ) → ℝ) (h0 : ℝ) (bbox : List (ℝ × ℝ)) (axis : ℕ) {P : ℕ} (hP : 1 ≤ P) :
    Completes P (fun r => localizeSizing (localFn fh h0 bbox axis P) P r)
      fun r x => Interp.localize (fun l => fh fun k => l.getD k 0) h0 bbox axis P r (List.ofFn x) :=
  completes_of_preach (localizeSizing_run _ hP)

/-- **C59 (messages).** `_generate_initial_points`, called by all `P` ranks, completes under every schedule; every rank ends with the points
C59 describes for it, and all ranks with the same list of extents: in place `r` that of the points of rank `r`. -/
theorem C59_messages {I : Init.Input d} {P : ℕ} (hP : 1 ≤ P) {ps : List (List (Fin d → ℝ))} {es : List ((Fin d → ℝ) × (Fin d → ℝ))}
    (hps : Init.parallelPoints (onRanks I P) P = .ok ps) (hes : Init.formExtents I.h0 I.axis ps = .ok es) :
    Completes P (fun r => generatePoints I P r) fun r => (sizeOn I P r, ps.getD r [], es.map flatExt) :=
  completes_of_preach (generatePoints_run hP hps hes)

/-- The hypotheses of `C59_messages` are met: two ranks, the unit square inside the domain, sizes 1/10, one fixed point. -/
example : ∃ ps es, Init.parallelPoints (onRanks (d := 2)
    ⟨1 / 10, 1 / 20, [(0, 1), (0, 1)], fun _ => -1, fun _ _ => 1 / 10, [fun _ => 1 / 2], 1, false, false, fun _ => 1 / 2⟩ 2) 2 = .ok ps ∧
    Init.formExtents (1 / 10) 1 ps = .ok es := by
  have hs : sizeOn (d := 2)
    ⟨1 / 10, 1 / 20, [(0, 1), (0, 1)], fun _ => -1, fun _ _ => 1 / 10, [fun _ => 1 / 2], 1, false, false, fun _ => 1 / 2⟩ 2 =
      fun _ _ => 1 / 10 := by
    funext r; simp [sizeOn]
  have hP : ∃ ps, Init.parallelPoints (onRanks (d := 2)
      ⟨1 / 10, 1 / 20, [(0, 1), (0, 1)], fun _ => -1, fun _ _ => 1 / 10, [fun _ => 1 / 2], 1, false, false, fun _ => 1 / 2⟩ 2) 2 = .ok ps := by
    unfold onRanks
    rw [hs]
    obtain ⟨G, hG, hT⟩ := Init.C60_rectangle (h := 1 / 10) (by norm_num) (size := 2) (by norm_num) (fun _ => (0, 1)) (by simp) 1 (by norm_num)
    have hin : ∀ l : List (Fin 2 → ℝ), Init.inside (fun _ => (-1 : ℝ)) (1 / 20) l = l := by
      intro l; rw [Init.inside, List.filter_eq_self]; intro x _; norm_num
    have hmin : ∀ l : List (Fin 2 → ℝ), (∃ q, q ∈ l) → ∃ m, Init.minOf (l.map fun _ => (1 / 10 : ℝ)) = .ok m := by
      intro l hl
      cases l with
      | nil => simp at hl
      | cons a l => exact ⟨_, rfl⟩
    obtain ⟨q0, hq0, -⟩ := hT.low
    obtain ⟨q1, hq1, -⟩ := hT.high
    obtain ⟨m0, hm0⟩ := hmin (G 0) ⟨q0, hq0⟩
    obtain ⟨m1, hm1⟩ := hmin (G 1) ⟨q1, hq1⟩
    have g0 := hG 0 (by norm_num)
    have g1 := hG 1 (by norm_num)
    rw [show ((1 : Fin 2) : ℕ) = 1 from rfl] at g0 g1
    simp only [Init.parallelPoints, Init.candidates, Init.rawPoints, List.range_succ, List.range_zero, List.nil_append, List.cons_append,
      List.mapM_cons, List.mapM_nil, g0, g1, hin, bind, Except.bind, pure, Except.pure, Init.rankR0m, Init.localR0m, hm0, hm1,
      List.zipIdx_cons, List.zipIdx_nil, Bool.and_false, Bool.not_false, Bool.false_eq_true, if_false, if_true]
    simp only [Init.minOf]
    exact ⟨_, rfl⟩
  obtain ⟨ps, hps⟩ := hP
  have hne : ∀ p ∈ ps, p.isEmpty = false := by
    simp only [Init.parallelPoints, bind, Except.bind, pure, Except.pure] at hps
    split at hps
    · cases hps
    split at hps
    · cases hps
    split at hps
    · cases hps
    cases hps
    intro p hp
    obtain ⟨q, -, rfl⟩ := List.mem_map.1 hp
    rfl
  refine ⟨ps, ?_⟩
  have : ∀ l : List (List (Fin 2 → ℝ)), (∀ p ∈ l, p.isEmpty = false) → ∃ es, l.mapM (Init.extentOf (1 / 10) 1) = .ok es := by
    intro l
    induction l with
    | nil => intro _; exact ⟨[], rfl⟩
    | cons p l ih =>
      intro h
      obtain ⟨es, hes⟩ := ih fun q hq => h q (by simp [hq])
      obtain ⟨e, he⟩ : ∃ e, Init.extentOf (1 / 10) 1 p = .ok e := by
        unfold Init.extentOf
        rw [h p (by simp)]
        exact ⟨_, rfl⟩
      exact ⟨e :: es, by simp only [List.mapM_cons, he, hes, bind, Except.bind, pure, Except.pure]⟩
  obtain ⟨es, hes⟩ := this ps hne
  exact ⟨es, hps, hes⟩

/-! ## C76 -/

variable {κ ρ : Type} [LinearOrder κ] [LinearOrder ρ]

/-- **C76.** A parallel run with generated points completes on every rank, under every schedule and every buffering behaviour, with the result
of the pass-by-pass description `Together`, started from the points and extents of `_generate_initial_points`: the mesh on rank 0, `(True, True)`
on the others, and no message left over. -/
theorem C76_generated {W : World d κ ρ} {I : Init.Input d} {P n : ℕ} (hd : 1 ≤ d) (hP : 2 ≤ P) (hmax : 0 ≤ W.E.maxIter) (eps : ℝ)
    {ps : List (List (Fin d → ℝ))} {es : List ((Fin d → ℝ) × (Fin d → ℝ))} (hps : Init.parallelPoints (onRanks I P) P = .ok ps)
    (hes : Init.formExtents I.h0 I.axis ps = .ok es) {box : ℕ → WhereTo.Box d ℝ × WhereTo.Box d ℝ}
    (hbox : ∀ r < P, WhereTo.neighbours (es.map flatExt) r P = .ok (box r)) {out : ℕ → Result d}
    (h : Together W P (sizeOn I P) (es.map flatExt) box n (fun r => ⟨0, ps.getD r [], 0⟩) out) :
    Completes P (fun r => rankRun W I eps none P r n) out := by
  apply completes_of_preach
  refine seq (generatePoints_run (by omega) hps hes) (PReach.trans (.refl fun r hr => ?_) (passes_run hd hP hbox h))
  have hne : (ps.getD r []).isEmpty = false := by
    obtain ⟨le, ge⟩ := mapM_get hes
    have hlen : r < ps.length := by
      have : ps.length = P := by
        simp only [Init.parallelPoints, bind, Except.bind, pure, Except.pure] at hps
        split at hps
        · cases hps
        rename_i cs hcs
        split at hps
        · cases hps
        split at hps
        · cases hps
        cases hps
        simpa using (mapM_get hcs).1
      omega
    obtain ⟨y, -, hy⟩ := ge r _ (List.getElem?_eq_getElem hlen)
    rw [List.getD, List.getElem?_eq_getElem hlen]
    unfold Init.extentOf at hy
    split at hy
    · cases hy
    · rename_i hh
      simpa using hh
  simp only [if_neg (not_lt.2 hmax), hne]
  rfl

/-- **C76, user-defined points.** The same with the blocks and extents of `blocker`. -/
theorem C76_user_points {W : World d κ ρ} {I : Init.Input d} {P n : ℕ} (hd : 1 ≤ d) (hP : 2 ≤ P) (hmax : 0 ≤ W.E.maxIter) {eps : ℝ}
    {points : List (Fin d → ℝ)} {blocks : List (List (Fin d → ℝ))} {es : List (List ℝ)} (hb : Blocker.blocker eps points P I.axis = .ok (blocks, es))
    (hlen : P ≤ blocks.length) {box : ℕ → WhereTo.Box d ℝ × WhereTo.Box d ℝ}
    (hbox : ∀ r < P, WhereTo.neighbours es r P = .ok (box r)) {out : ℕ → Result d}
    (h : Together W P (fun r => localFn (I.fh 0) I.h0 I.bbox I.axis P r) es box n (fun r => ⟨0, blocks.getD r [], 0⟩) out) :
    Completes P (fun r => rankRun W I eps (some points) P r n) out := by
  have hne : ∀ b ∈ blocks, b ≠ [] := by
    unfold Blocker.blocker at hb
    split at hb; · cases hb
    split at hb; · cases hb
    split at hb; · cases hb
    split at hb; · cases hb
    split at hb; · cases hb
    cases hb
    intro b hb
    simpa using (List.mem_filter.1 hb).2
  apply completes_of_preach
  refine seq (userDefined_run hP hb hlen) (PReach.trans (.refl fun r hr => ?_) (passes_run hd hP hbox h))
  have : (blocks.getD r []).isEmpty = false := by
    rw [List.getD, List.getElem?_eq_getElem (by omega)]
    simpa using hne _ (List.getElem_mem (by omega : r < blocks.length))
  simp only [if_neg (not_lt.2 hmax), this]
  rfl

/-! ## C77 -/

/-- **C77.** Without any assumption on the input: in any two executions of the same call (whatever the schedules and the buffering), a rank that has returned or raised in
both has returned the same result or raised the same exception; and if all ranks have stopped in one of them, the other can only be continued to the same end. -/
theorem C77_deterministic (W : World d κ ρ) (I : Init.Input d) (eps : ℝ) (points : Option (List (Fin d → ℝ))) (P k : ℕ) {n m : ℕ}
    {u v : Mpi.State (Msg d) (Result d)} (hu : Run P false n (init fun r => rankRun W I eps points P r k) u)
    (hv : Run P false m (init fun r => rankRun W I eps points P r k) v) :
    (∀ r, Stopped (u r).proc → Stopped (v r).proc → (u r).proc = (v r).proc) ∧
      (Ended P u → ∃ j, Run P false j v u) := by
  refine ⟨fun r h1 h2 => same_result hu hv h1 h2, fun he => ?_⟩
  obtain ⟨w, ⟨k1, r1⟩, ⟨k2, r2⟩⟩ := confluent hu hv
  cases r1 with
  | nil => exact ⟨k2, r2⟩
  | cons h1 _ => exact absurd h1 (ended_no_step he)

/-! ## C78 -/

theorem Needs.bind {M R S : Type} {a t : ℕ} {p : Proc M R} (h : Needs a t p) (f : R → Proc M S) : Needs a t (p.bind f) := by
  induction h with
  | recv k => exact .recv _
  | send d u m k _ ih => exact .send _ _ _ _ ih
  | wait d u i k _ ih => exact .wait _ _ _ _ ih
  | other b u k hne _ ih => exact .other _ _ _ hne fun m => ih m
  | coll need m k _ ih => exact .coll _ _ _ fun m => ih m
  | inColl j need k _ ih => exact .inColl _ _ _ fun m => ih m

/-- **C78 is false: an exception on one rank.** If in some pass (which is not the last one) the update of rank 0 raises (e.g. the assertion on the largest movement, which
only rank 0 checks) while the other ranks finish the pass, then rank 1 never returns and never raises: it waits for rank 0 for ever, in every execution. -/
theorem C78_false_exception {W : World d κ ρ} {P : ℕ} {fh : ℕ → (Fin d → ℝ) → ℝ} {extents : List (List ℝ)} {box : ℕ → WhereTo.Box d ℝ × WhereTo.Box d ℝ} (hd : 1 ≤ d)
    (hP : 2 ≤ P) (hpfix : W.E.pfix = []) (hbox : ∀ r < P, WhereTo.neighbours extents r P = .ok (box r)) {s s' : ℕ → State d} (ht : Talks W P box s) {n : ℕ}
    {top : List (Fin d → ℝ) × List (List ℕ) × List ℕ × List ℕ × ℕ} {e : String} (hc : ((s 0).count : ℝ) ≠ W.E.maxIter - 1)
    (h0 : topology (envAt W P fh extents box s 0 ([], [])) (s 0) = .ok top)
    (h0' : move (envAt W P fh extents box s 0 ([], [])) top.1 top.2.1 top.2.2.1 top.2.2.2.1 top.2.2.2.2 = .error e)
    (hs : ∀ r < P, r ≠ 0 → step (envAt W P fh extents box s r ([], [])) (s r) = .running (s' r))
    (ht' : (∀ r < P, r ≠ 0 → exportsOf W box s' false r ≠ []) ∧ ∀ r, r ≠ 0 → r + 1 < P → exportsOf W box s' true r ≠ [])
    {m : ℕ} {u : Mpi.State (Msg d) (Result d)} (hu : Run P false m (init fun r => passes W P r (fh r) extents (n + 2) (s r)) u) :
    ¬ Stopped (u 1).proc := by
  have h1 : ∀ r, ∃ top p, r ≠ 0 → r < P → topology (envAt W P fh extents box s r ([], [])) (s r) = .ok top ∧
      move (envAt W P fh extents box s r ([], [])) top.1 top.2.1 top.2.2.1 top.2.2.2.1 top.2.2.2.2 = .ok p ∧ s' r = ⟨(s r).count + 1, p, (s r).tri + 1⟩ := fun r => by
    by_cases hr : r ≠ 0 ∧ r < P
    · obtain ⟨-, top, p, h⟩ := step_running (hs r hr.2 hr.1)
      exact ⟨top, p, fun _ _ => h⟩
    · exact ⟨([], [], [], [], 0), [], fun h h' => absurd ⟨h, h'⟩ hr⟩
  choose tp p htp using h1
  have hstart : PReach P (fun r => passes W P r (fh r) extents (n + 2) (s r))
      fun r => if r = 0 then .raised e else passes W P r (fh r) extents (n + 1) (s' r) := by
    have hp : PReach P (fun r => pass W P r (fh r) extents (s r)) fun r => if r = 0 then .raised e else .ret (.running (s' r)) := by
      refine pass_head hd hP hbox ht (top := fun r => if r = 0 then top else tp r) (fun r hr => ?_) _ fun g hg => .refl fun r hr => ?_
      · by_cases h : r = 0
        · subst h; exact h0
        · rw [if_neg h]; exact (htp r h hr).1
      · by_cases h : r = 0
        · subst h
          simp only [if_true]
          rw [envAt, hg 0 hr] at h0'
          rw [if_neg hc, h0']; rfl
        · have hcr : ((s r).count : ℝ) ≠ W.E.maxIter - 1 := (step_running (hs r hr h)).1
          have hm := (htp r h hr).2.1
          rw [envAt, hg r hr] at hm
          simp only [if_neg h]
          rw [if_neg hcr, hm, (htp r h hr).2.2]; rfl
    refine (hp.bind _).trans (.refl fun r hr => ?_)
    by_cases h : r = 0
    · simp only [if_pos h]; rfl
    · simp only [if_neg h]; rfl
  -- the next pass of the other ranks begins with the exchange
  let B := exportsOf W box s' false
  let A := exportsOf W box s' true
  let kk : ℕ → List (List ℝ) → Proc (List (List ℝ)) _ := fun r recv =>
    lift (Ghost.absorb W.C W.sd extents r (DtWrapper.getTopology (triangulate W (s' r).p)).2 recv)
  have hform : ∀ r < P, r ≠ 0 → ∃ K, passes W P r (fh r) extents (n + 1) (s' r) = ((Exchange.stA P B A kk r).embed Msg.rows Msg.toRows).bind K := by
    intro r hr h
    have hpk : Exchange.Packed d (WhereTo.whereTo W.G W.junk (ownMesh W (s' r)).1 (ownMesh W (s' r)).2 (box r).1 (box r).2) (B r) (A r) :=
      WhereTo.C67_unpacks hd W.G W.junk _ _ _ _
    refine ⟨fun g => (afterGhosts W P r (fh r) (s' r) g).bind fun o => match o with
      | .running s => passes W P r (fh r) extents n s
      | o => pure o, ?_⟩
    rw [← bind_assoc', ← Exchange.body_bind P _ _ _ r hr (ht'.1 r hr) (ht'.2 r h) hP, ← Exchange.exchange_packed (rank := r) (size := P) (dim := d) hpk]
    have : ((Exchange.exchange r P d (WhereTo.whereTo W.G W.junk (ownMesh W (s' r)).1 (ownMesh W (s' r)).2 (box r).1 (box r).2)).bind (kk r)) =
        Ghost.addGhost W.C W.G W.junk W.sd extents r P (DtWrapper.getTopology (triangulate W (s' r).p)).2 (ownMesh W (s' r)).1 (ownMesh W (s' r)).2 := by
      simp only [Ghost.addGhost, WhereTo.enqueue, hbox r hr, bind, Except.bind, pure, Except.pure, lift, Proc.bind, kk]
    rw [this]
    simp only [passes, pass, hpfix, List.mapM_nil]
    rfl
  obtain ⟨K1, hK1⟩ := hform 1 (by omega) (by omega)
  by_cases hP2 : P = 2
  · refine hangs hstart (a := 0) (b := 1) (t := 11) (by omega) (by omega) (Or.inr ⟨e, by simp⟩) ?_ hu
    simp only [one_ne_zero, if_false]
    rw [hK1]
    apply Needs.bind
    simp only [Exchange.stA, Exchange.stB, Exchange.stC, Exchange.stD, hP2]
    simp only [ne_eq, one_ne_zero, not_false_eq_true, if_true, Nat.sub_self, Nat.add_one_sub_one, not_true_eq_false, if_false, Proc.embed]
    exact .send _ _ _ _ (.recv _)
  · obtain ⟨K2, hK2⟩ := hform 2 (by omega) (by omega)
    refine hangs_after hstart (a := 0) (b := 1) (c := 2) (t := 11) (t0 := 11) (t1 := 11) (m0 := .rows (B 1)) (m1 := .rows (B 2))
      (k := fun m' => Proc.bind ((Msg.toRows m').elim (Proc.raised "TypeError") fun x => (Exchange.stC P A kk 1 x).embed Msg.rows Msg.toRows) K1)
      (kc := ((Exchange.stB P A kk 2).embed Msg.rows Msg.toRows).bind K2)
      (by omega) (by omega) (by omega) (by omega) (by omega) (by omega) (Or.inr ⟨e, by simp⟩) ?_ ?_ ?_ hu
    · simp only [one_ne_zero, if_false]
      rw [hK1]
      simp only [Exchange.stA, Exchange.stB, ne_eq, one_ne_zero, not_false_eq_true, if_true, if_pos (show ¬ (1 = P - 1) by omega), Nat.sub_self, Proc.embed, Proc.bind]
    · simp only [OfNat.ofNat_ne_zero, if_false]
      rw [hK2]
      simp only [Exchange.stA, ne_eq, OfNat.ofNat_ne_zero, not_false_eq_true, if_true, Proc.embed, Proc.bind]
    · simp only [Msg.toRows, Option.elim, Exchange.stC, Exchange.stD, ne_eq, if_pos (show ¬ (1 = P - 1) by omega), one_ne_zero, not_false_eq_true, if_true, Nat.sub_self,
        Proc.embed, Proc.bind]
      exact .send _ _ _ _ (.recv _)

/-- `B` is the box of the points `p`, wider by `5 * h0` on both sides of the split axis. -/
def Around (h0 : ℝ) (axis : ℕ) (p : List (Fin d → ℝ)) (B : WhereTo.Box d ℝ) : Prop :=
  ∀ k : Fin d, (∀ x ∈ p, B.lo k + (if (k : ℕ) = axis then 5 * h0 else 0) ≤ x k ∧ x k ≤ B.hi k - if (k : ℕ) = axis then 5 * h0 else 0) ∧
    (∃ x ∈ p, x k = B.lo k + if (k : ℕ) = axis then 5 * h0 else 0) ∧ ∃ x ∈ p, x k = B.hi k - if (k : ℕ) = axis then 5 * h0 else 0

/-- **C76 (extents).** The boxes that rank `r` of a run with generated points compares its elements with are those of the starting points of the ranks `r - 1` and
`r + 1`, wider by `5 * h0` on both sides of the split axis. -/
theorem C76_boxes {h0 : ℝ} {axis P r : ℕ} {ps : List (List (Fin d → ℝ))} {es : List ((Fin d → ℝ) × (Fin d → ℝ))} (hes : Init.formExtents h0 axis ps = .ok es)
    (hP : 2 ≤ P) (hlen : ps.length = P) (hr : r < P) :
    ∃ box : WhereTo.Box d ℝ × WhereTo.Box d ℝ, WhereTo.neighbours (es.map flatExt) r P = .ok box ∧
      (∀ s, s + 1 = r → Around h0 axis (ps.getD s []) box.1) ∧ ∀ s, s = r + 1 → s < P → Around h0 axis (ps.getD s []) box.2 := by
  have h1 := Init.C60_extents hes
  have h2 := Init.C60_extents_sharp hes
  have hl : es.length = P := by rw [← hlen]; exact h1.length_eq.symm
  obtain ⟨box, e, s1, s2⟩ := WhereTo.neighbours_side (d := d) (extents := es.map flatExt) hP hr (by simpa using hl) (by
    intro ex hex
    obtain ⟨e, -, rfl⟩ := List.mem_map.1 hex
    simp [flatExt]; omega)
  have key : ∀ s < P, ∀ B : WhereTo.Box d ℝ, (∃ ex, (es.map flatExt)[s]? = some ex ∧ WhereTo.IsBlock ex B) → Around h0 axis (ps.getD s []) B := by
    rintro s hs B ⟨ex, hex, hB⟩ k
    have hs1 : s < ps.length := by omega
    have hs2 : s < es.length := by omega
    rw [List.getElem?_map, List.getElem?_eq_getElem hs2] at hex
    cases hex
    have hB' := hB k
    have hk := k.2
    have e1 : B.lo k = es[s].1 k := by
      have := hB'.1
      simp [flatExt, List.getElem?_append, hk] at this
      exact this.symm
    have e2 : B.hi k = es[s].2 k := by
      have := hB'.2
      simp [flatExt, List.getElem?_append, hk] at this
      exact this.symm
    rw [List.getD, List.getElem?_eq_getElem hs1, Option.getD_some, e1, e2]
    have a1 := (List.forall₂_iff_get.1 h1).2 s hs1 hs2
    have a2 := (List.forall₂_iff_get.1 h2).2 s hs1 hs2
    exact ⟨fun x hx => a1 x hx k, (a2 k).1, (a2 k).2⟩
  refine ⟨box, e, fun s hs => ?_, fun s hs hsP => ?_⟩
  · rcases s1 with ⟨s', ex, h, h', h3⟩ | ⟨h, -⟩
    · simp at h
      obtain rfl : s' = s := by omega
      exact key _ h' _ ⟨ex, h3⟩
    · simp at h; omega
  · rcases s2 with ⟨s', ex, h, h', h3⟩ | ⟨h, -⟩
    · simp at h
      obtain rfl : s' = s := by omega
      exact key _ h' _ ⟨ex, h3⟩
    · simp at h; omega

/-- Two ranks with one point each meet the hypotheses of `C76_boxes`. -/
example : ∃ es, Init.formExtents (d := 2) (1 / 10) 1 [[fun _ => 0], [fun _ => 1]] = .ok es := ⟨_, rfl⟩

end SM.Parallel
