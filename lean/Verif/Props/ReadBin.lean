import Verif.Model.ReadBin
import Mathlib.Data.List.Perm.Basic
import Mathlib.Tactic.Linarith

/-!
# C17, C18: reading velocity models
-/

namespace SM.ReadBin

variable {V : Type}

/-! ### specification vocabulary -/

/-- Position in the file of the value with file index `(f0,f1,f2)` in a file of dimensions
`(D0,D1,D2)`: "F": the first file axis varies fastest; "C": the last one. -/
def filePos (sort : String) (D0 D1 D2 f0 f1 f2 : ℕ) : ℕ :=
  if sort = "F" then f0 + D0 * (f1 + D1 * f2) else (f0 * D1 + f1) * D2 + f2

/-! ### lemmas -/

theorem perm3 {l : List ℕ} (h : l.Perm [0, 1, 2]) :
    l = [0, 1, 2] ∨ l = [0, 2, 1] ∨ l = [1, 0, 2] ∨ l = [1, 2, 0] ∨ l = [2, 0, 1] ∨ l = [2, 1, 0] := by
  have hl := h.length_eq
  match l, hl with
  | [a, b, c], _ =>
    have ha : a < 3 := by have := h.mem_iff (a := a); simp at this; omega
    have hb : b < 3 := by have := h.mem_iff (a := b); simp at this; omega
    have hc : c < 3 := by have := h.mem_iff (a := c); simp at this; omega
    have hn := h.nodup_iff.2 (by decide)
    simp only [List.nodup_cons, List.mem_cons, List.not_mem_nil, or_false, not_or,
      List.nodup_nil, not_false_eq_true, and_true] at hn
    simp only [List.cons.injEq, and_true]
    omega

theorem inShape3 (d0 d1 d2 i0 i1 i2 : ℕ) :
    InShape [d0, d1, d2] [i0, i1, i2] ↔ i0 < d0 ∧ i1 < d1 ∧ i2 < d2 := by
  simp [InShape]

theorem reshape_eq {xs : List V} {e0 e1 e2 : ℕ} (hlen : e0 * e1 * e2 = xs.length) {sort : String}
    (hs : sort = "F" ∨ sort = "C") :
    ∃ g, reshape xs [e0, e1, e2] sort = .ok ⟨[e0, e1, e2], g⟩ ∧
      ∀ f0 f1 f2, f0 < e0 → f1 < e1 → f2 < e2 →
        g [f0, f1, f2] = xs[filePos sort e0 e1 e2 f0 f1 f2]? := by
  have hl : ¬ ([e0, e1, e2].prod ≠ xs.length) := by
    rw [← hlen]; simp [Nat.mul_assoc]
  rcases hs with rfl | rfl
  · refine ⟨_, by unfold reshape; rw [if_neg hl, if_pos rfl], fun f0 f1 f2 h0 h1 h2 => ?_⟩
    rw [if_pos ((inShape3 _ _ _ _ _ _).2 ⟨h0, h1, h2⟩)]
    simp [flatF, filePos]
  · refine ⟨_, by unfold reshape; rw [if_neg hl, if_neg (by decide), if_pos rfl],
      fun f0 f1 f2 h0 h1 h2 => ?_⟩
    rw [if_pos ((inShape3 _ _ _ _ _ _).2 ⟨h0, h1, h2⟩)]
    have : flatC [e0, e1, e2] [f0, f1, f2] = (f0 * e1 + f1) * e2 + f2 := by
      simp [flatC]; ring
    rw [this]; simp [filePos]

theorem gather_argsort {nz nx ny : ℕ} :
    gather [nz, nx, ny] (argsort [0, 1, 2]) = .ok [nz, nx, ny] ∧
    gather [nz, nx, ny] (argsort [0, 2, 1]) = .ok [nz, ny, nx] ∧
    gather [nz, nx, ny] (argsort [1, 0, 2]) = .ok [nx, nz, ny] ∧
    gather [nz, nx, ny] (argsort [1, 2, 0]) = .ok [ny, nz, nx] ∧
    gather [nz, nx, ny] (argsort [2, 0, 1]) = .ok [nx, ny, nz] ∧
    gather [nz, nx, ny] (argsort [2, 1, 0]) = .ok [ny, nx, nz] := by
  refine ⟨rfl, rfl, rfl, rfl, rfl, rfl⟩

theorem flipud_eq (T : Nd V) {nz nx ny : ℕ} (hs : T.shape = [nz, nx, ny]) :
    ∃ a, flipud T = .ok a ∧ a.shape = [nz, nx, ny] ∧
      ∀ i j k, i < nz → a.get [nz - 1 - i, j, k] = T.get [i, j, k] := by
  unfold flipud
  rw [hs]
  refine ⟨_, rfl, rfl, fun i j k hi => ?_⟩
  have e1 : nz - 1 - (nz - 1 - i) = i := by omega
  have e2 : nz - 1 - i < nz := by omega
  simp [e1, e2]

/-- **C17 (values).** For every permutation `axesOrder = (a0,a1,a2)`, both storage orders and
every file with `nz*nx*ny` values: the result has shape `(nz,nx,ny)`, and the value at
`(nz-1-i, j, k)` is the file value whose index on file axis `a0` is `i`, on file axis `a1` is `j`
and on file axis `a2` is `k`, in a file whose axis `a0` has length `nz`, `a1` `nx`, `a2` `ny`. -/
theorem C17_read_bin {w : ℕ} {dec : List UInt8 → V} {bytes : List UInt8} {nz nx ny : ℕ}
    {bo sort : String} {a0 a1 a2 : ℕ} (hp : [a0, a1, a2].Perm [0, 1, 2])
    (hs : sort = "F" ∨ sort = "C") {xs : List V} (hf : fromfile w dec bo bytes = .ok xs)
    (hlen : xs.length = nz * nx * ny) :
    ∃ a, readBin w dec bytes (some nz) (some nx) (some ny) bo [a0, a1, a2] sort =
        .ok (a, nz, nx, ny) ∧ a.shape = [nz, nx, ny] ∧
      ∀ D0 D1 D2 f0 f1 f2 i j k : ℕ,
        [D0, D1, D2][a0]? = some nz → [D0, D1, D2][a1]? = some nx → [D0, D1, D2][a2]? = some ny →
        [f0, f1, f2][a0]? = some i → [f0, f1, f2][a1]? = some j → [f0, f1, f2][a2]? = some k →
        i < nz → j < nx → k < ny →
        a.get [nz - 1 - i, j, k] = xs[filePos sort D0 D1 D2 f0 f1 f2]? := by
  obtain ⟨g1, g2, g3, g4, g5, g6⟩ := gather_argsort (nz := nz) (nx := nx) (ny := ny)
  rcases perm3 hp with h | h | h | h | h | h <;> simp only [List.cons.injEq, and_true] at h <;>
    obtain ⟨rfl, rfl, rfl⟩ := h
  · obtain ⟨g, hr, hg⟩ := reshape_eq (xs := xs) (e0 := nz) (e1 := nx) (e2 := ny)
      (by rw [hlen]; try ring) hs
    obtain ⟨T, hT, hTs, hTg⟩ : ∃ T, transpose ⟨[nz, nx, ny], g⟩ [0, 1, 2] = .ok T ∧
        T.shape = [nz, nx, ny] ∧ ∀ i j k, T.get [i, j, k] = g [i, j, k] :=
      ⟨_, rfl, rfl, fun _ _ _ => rfl⟩
    obtain ⟨a, ha, has, hag⟩ := flipud_eq T hTs
    refine ⟨a, ?_, has, ?_⟩
    · simp only [readBin, g1, hf, hr, hT, ha, bind, Except.bind, pure, Except.pure]
    · intro D0 D1 D2 f0 f1 f2 i j k p0 p1 p2 q0 q1 q2 hi hj hk
      simp only [List.getElem?_cons_zero, List.getElem?_cons_succ, Option.some.injEq]
        at p0 p1 p2 q0 q1 q2
      subst p0 p1 p2 q0 q1 q2
      rw [hag _ _ _ hi, hTg, hg _ _ _ (by assumption) (by assumption) (by assumption)]
  · obtain ⟨g, hr, hg⟩ := reshape_eq (xs := xs) (e0 := nz) (e1 := ny) (e2 := nx)
      (by rw [hlen]; try ring) hs
    obtain ⟨T, hT, hTs, hTg⟩ : ∃ T, transpose ⟨[nz, ny, nx], g⟩ [0, 2, 1] = .ok T ∧
        T.shape = [nz, nx, ny] ∧ ∀ i j k, T.get [i, j, k] = g [i, k, j] :=
      ⟨_, rfl, rfl, fun _ _ _ => rfl⟩
    obtain ⟨a, ha, has, hag⟩ := flipud_eq T hTs
    refine ⟨a, ?_, has, ?_⟩
    · simp only [readBin, g2, hf, hr, hT, ha, bind, Except.bind, pure, Except.pure]
    · intro D0 D1 D2 f0 f1 f2 i j k p0 p1 p2 q0 q1 q2 hi hj hk
      simp only [List.getElem?_cons_zero, List.getElem?_cons_succ, Option.some.injEq]
        at p0 p1 p2 q0 q1 q2
      subst p0 p1 p2 q0 q1 q2
      rw [hag _ _ _ hi, hTg, hg _ _ _ (by assumption) (by assumption) (by assumption)]
  · obtain ⟨g, hr, hg⟩ := reshape_eq (xs := xs) (e0 := nx) (e1 := nz) (e2 := ny)
      (by rw [hlen]; try ring) hs
    obtain ⟨T, hT, hTs, hTg⟩ : ∃ T, transpose ⟨[nx, nz, ny], g⟩ [1, 0, 2] = .ok T ∧
        T.shape = [nz, nx, ny] ∧ ∀ i j k, T.get [i, j, k] = g [j, i, k] :=
      ⟨_, rfl, rfl, fun _ _ _ => rfl⟩
    obtain ⟨a, ha, has, hag⟩ := flipud_eq T hTs
    refine ⟨a, ?_, has, ?_⟩
    · simp only [readBin, g3, hf, hr, hT, ha, bind, Except.bind, pure, Except.pure]
    · intro D0 D1 D2 f0 f1 f2 i j k p0 p1 p2 q0 q1 q2 hi hj hk
      simp only [List.getElem?_cons_zero, List.getElem?_cons_succ, Option.some.injEq]
        at p0 p1 p2 q0 q1 q2
      subst p0 p1 p2 q0 q1 q2
      rw [hag _ _ _ hi, hTg, hg _ _ _ (by assumption) (by assumption) (by assumption)]
  · obtain ⟨g, hr, hg⟩ := reshape_eq (xs := xs) (e0 := ny) (e1 := nz) (e2 := nx)
      (by rw [hlen]; try ring) hs
    obtain ⟨T, hT, hTs, hTg⟩ : ∃ T, transpose ⟨[ny, nz, nx], g⟩ [1, 2, 0] = .ok T ∧
        T.shape = [nz, nx, ny] ∧ ∀ i j k, T.get [i, j, k] = g [k, i, j] :=
      ⟨_, rfl, rfl, fun _ _ _ => rfl⟩
    obtain ⟨a, ha, has, hag⟩ := flipud_eq T hTs
    refine ⟨a, ?_, has, ?_⟩
    · simp only [readBin, g4, hf, hr, hT, ha, bind, Except.bind, pure, Except.pure]
    · intro D0 D1 D2 f0 f1 f2 i j k p0 p1 p2 q0 q1 q2 hi hj hk
      simp only [List.getElem?_cons_zero, List.getElem?_cons_succ, Option.some.injEq]
        at p0 p1 p2 q0 q1 q2
      subst p0 p1 p2 q0 q1 q2
      rw [hag _ _ _ hi, hTg, hg _ _ _ (by assumption) (by assumption) (by assumption)]
  · obtain ⟨g, hr, hg⟩ := reshape_eq (xs := xs) (e0 := nx) (e1 := ny) (e2 := nz)
      (by rw [hlen]; try ring) hs
    obtain ⟨T, hT, hTs, hTg⟩ : ∃ T, transpose ⟨[nx, ny, nz], g⟩ [2, 0, 1] = .ok T ∧
        T.shape = [nz, nx, ny] ∧ ∀ i j k, T.get [i, j, k] = g [j, k, i] :=
      ⟨_, rfl, rfl, fun _ _ _ => rfl⟩
    obtain ⟨a, ha, has, hag⟩ := flipud_eq T hTs
    refine ⟨a, ?_, has, ?_⟩
    · simp only [readBin, g5, hf, hr, hT, ha, bind, Except.bind, pure, Except.pure]
    · intro D0 D1 D2 f0 f1 f2 i j k p0 p1 p2 q0 q1 q2 hi hj hk
      simp only [List.getElem?_cons_zero, List.getElem?_cons_succ, Option.some.injEq]
        at p0 p1 p2 q0 q1 q2
      subst p0 p1 p2 q0 q1 q2
      rw [hag _ _ _ hi, hTg, hg _ _ _ (by assumption) (by assumption) (by assumption)]
  · obtain ⟨g, hr, hg⟩ := reshape_eq (xs := xs) (e0 := ny) (e1 := nx) (e2 := nz)
      (by rw [hlen]; try ring) hs
    obtain ⟨T, hT, hTs, hTg⟩ : ∃ T, transpose ⟨[ny, nx, nz], g⟩ [2, 1, 0] = .ok T ∧
        T.shape = [nz, nx, ny] ∧ ∀ i j k, T.get [i, j, k] = g [k, j, i] :=
      ⟨_, rfl, rfl, fun _ _ _ => rfl⟩
    obtain ⟨a, ha, has, hag⟩ := flipud_eq T hTs
    refine ⟨a, ?_, has, ?_⟩
    · simp only [readBin, g6, hf, hr, hT, ha, bind, Except.bind, pure, Except.pure]
    · intro D0 D1 D2 f0 f1 f2 i j k p0 p1 p2 q0 q1 q2 hi hj hk
      simp only [List.getElem?_cons_zero, List.getElem?_cons_succ, Option.some.injEq]
        at p0 p1 p2 q0 q1 q2
      subst p0 p1 p2 q0 q1 q2
      rw [hag _ _ _ hi, hTg, hg _ _ _ (by assumption) (by assumption) (by assumption)]

theorem filePos_lt {sort : String} {D0 D1 D2 f0 f1 f2 : ℕ} (h0 : f0 < D0) (h1 : f1 < D1)
    (h2 : f2 < D2) : filePos sort D0 D1 D2 f0 f1 f2 < D0 * D1 * D2 := by
  unfold filePos
  split_ifs
  · have a : f1 + D1 * f2 + 1 ≤ D1 * D2 := by nlinarith
    have b : D0 * (f1 + D1 * f2 + 1) ≤ D0 * (D1 * D2) := Nat.mul_le_mul_left _ a
    rw [Nat.mul_assoc]; nlinarith
  · have a : f0 * D1 + f1 + 1 ≤ D0 * D1 := by nlinarith
    have b : (f0 * D1 + f1 + 1) * D2 ≤ (D0 * D1) * D2 := Nat.mul_le_mul_right _ a
    nlinarith

theorem split_unique {n a b c d : ℕ} (ha : a < n) (hc : c < n) (h : a + n * b = c + n * d) :
    a = c ∧ b = d := by
  have hm : a = c := by
    have := congrArg (· % n) h
    simpa [Nat.add_mul_mod_self_left, Nat.mod_eq_of_lt ha, Nat.mod_eq_of_lt hc] using this
  refine ⟨hm, ?_⟩
  subst hm
  exact Nat.eq_of_mul_eq_mul_left (by omega : 0 < n) (by omega)

theorem filePos_inj {sort : String} {D0 D1 D2 f0 f1 f2 g0 g1 g2 : ℕ} (h0 : f0 < D0) (h1 : f1 < D1)
    (h2 : f2 < D2) (k0 : g0 < D0) (k1 : g1 < D1) (k2 : g2 < D2)
    (h : filePos sort D0 D1 D2 f0 f1 f2 = filePos sort D0 D1 D2 g0 g1 g2) :
    f0 = g0 ∧ f1 = g1 ∧ f2 = g2 := by
  unfold filePos at h
  split_ifs at h
  · obtain ⟨a, b⟩ := split_unique h0 k0 h
    obtain ⟨c, d⟩ := split_unique h1 k1 b
    exact ⟨a, c, d⟩
  · obtain ⟨a, b⟩ := split_unique (n := D2) (b := f0 * D1 + f1) (d := g0 * D1 + g1) h2 k2
      (by linarith [Nat.mul_comm D2 (f0 * D1 + f1), Nat.mul_comm D2 (g0 * D1 + g1)])
    obtain ⟨c, d⟩ := split_unique (n := D1) (b := f0) (d := g0) h1 k1
      (by linarith [Nat.mul_comm D1 f0, Nat.mul_comm D1 g0])
    exact ⟨d, c, a⟩

theorem filePos_surj (sort : String) {D0 D1 D2 p : ℕ} (hp : p < D0 * D1 * D2) :
    ∃ f0 f1 f2, f0 < D0 ∧ f1 < D1 ∧ f2 < D2 ∧ filePos sort D0 D1 D2 f0 f1 f2 = p := by
  have d0 : 0 < D0 := by rcases Nat.eq_zero_or_pos D0 with h | h; · simp [h] at hp
                         · exact h
  have d1 : 0 < D1 := by rcases Nat.eq_zero_or_pos D1 with h | h; · simp [h] at hp
                         · exact h
  have d2 : 0 < D2 := by rcases Nat.eq_zero_or_pos D2 with h | h; · simp [h] at hp
                         · exact h
  by_cases hs : sort = "F"
  · refine ⟨p % D0, p / D0 % D1, p / D0 / D1, Nat.mod_lt _ d0, Nat.mod_lt _ d1, ?_, ?_⟩
    · rw [Nat.div_div_eq_div_mul, Nat.div_lt_iff_lt_mul (Nat.mul_pos d0 d1)]
      nlinarith
    · unfold filePos
      rw [if_pos hs, Nat.mod_add_div, Nat.mod_add_div]
  · refine ⟨p / D2 / D1, p / D2 % D1, p % D2, ?_, Nat.mod_lt _ d1, Nat.mod_lt _ d2, ?_⟩
    · rw [Nat.div_div_eq_div_mul, Nat.div_lt_iff_lt_mul (Nat.mul_pos d2 d1)]
      nlinarith
    · unfold filePos
      rw [if_neg hs, Nat.mul_comm (p / D2 / D1), Nat.div_add_mod, Nat.mul_comm (p / D2),
        Nat.div_add_mod]

/-- **C17 (one-to-one).** Every value of the file appears at exactly one position of the
returned array and every position holds a value of the file. -/
theorem C17_one_to_one {w : ℕ} {dec : List UInt8 → V} {bytes : List UInt8} {nz nx ny : ℕ}
    {bo sort : String} {a0 a1 a2 : ℕ} (hp : [a0, a1, a2].Perm [0, 1, 2])
    (hs : sort = "F" ∨ sort = "C") {xs : List V} (hf : fromfile w dec bo bytes = .ok xs)
    (hlen : xs.length = nz * nx * ny) :
    ∃ (a : Nd V) (pos : ℕ → ℕ → ℕ → ℕ),
      readBin w dec bytes (some nz) (some nx) (some ny) bo [a0, a1, a2] sort =
        .ok (a, nz, nx, ny) ∧
      (∀ i j k, i < nz → j < nx → k < ny →
        ∃ h : pos i j k < xs.length, a.get [i, j, k] = some xs[pos i j k]) ∧
      (∀ p < xs.length, ∃ i j k, i < nz ∧ j < nx ∧ k < ny ∧ pos i j k = p ∧
        ∀ i' j' k', i' < nz → j' < nx → k' < ny → pos i' j' k' = p → i' = i ∧ j' = j ∧ k' = k) := by
  obtain ⟨a, ha, -, hg⟩ := C17_read_bin hp hs hf hlen
  rcases perm3 hp with h | h | h | h | h | h <;> simp only [List.cons.injEq, and_true] at h <;>
    obtain ⟨rfl, rfl, rfl⟩ := h
  · refine ⟨a, fun i j k => filePos sort nz nx ny (nz - 1 - i) j k, ha, ?_, ?_⟩
    · intro i j k hi hj hk
      have hl : filePos sort nz nx ny (nz - 1 - i) j k < xs.length :=
        lt_of_lt_of_eq (filePos_lt (by omega) (by omega) (by omega)) (by rw [hlen]; try ring)
      refine ⟨hl, ?_⟩
      have := hg nz nx ny (nz - 1 - i) j k (nz - 1 - i) j k rfl rfl rfl rfl rfl rfl
        (by omega) hj hk
      rwa [show nz - 1 - (nz - 1 - i) = i by omega, List.getElem?_eq_getElem hl] at this
    · intro p hp
      obtain ⟨f0, f1, f2, h0, h1, h2, hpos⟩ := filePos_surj sort (D0 := nz) (D1 := nx)
        (D2 := ny) (p := p) (lt_of_lt_of_eq hp (by rw [hlen]; try ring))
      refine ⟨nz - 1 - f0, f1, f2, by omega, by assumption, by assumption, ?_, ?_⟩
      · simp only [show nz - 1 - (nz - 1 - f0) = f0 by omega]; exact hpos
      · intro i j k hi hj hk hpos'
        obtain ⟨e0, e1, e2⟩ := filePos_inj (by omega) (by omega) (by omega) h0 h1 h2
          (hpos'.trans hpos.symm)
        omega
  · refine ⟨a, fun i j k => filePos sort nz ny nx (nz - 1 - i) k j, ha, ?_, ?_⟩
    · intro i j k hi hj hk
      have hl : filePos sort nz ny nx (nz - 1 - i) k j < xs.length :=
        lt_of_lt_of_eq (filePos_lt (by omega) (by omega) (by omega)) (by rw [hlen]; try ring)
      refine ⟨hl, ?_⟩
      have := hg nz ny nx (nz - 1 - i) k j (nz - 1 - i) j k rfl rfl rfl rfl rfl rfl
        (by omega) hj hk
      rwa [show nz - 1 - (nz - 1 - i) = i by omega, List.getElem?_eq_getElem hl] at this
    · intro p hp
      obtain ⟨f0, f1, f2, h0, h1, h2, hpos⟩ := filePos_surj sort (D0 := nz) (D1 := ny)
        (D2 := nx) (p := p) (lt_of_lt_of_eq hp (by rw [hlen]; try ring))
      refine ⟨nz - 1 - f0, f2, f1, by omega, by assumption, by assumption, ?_, ?_⟩
      · simp only [show nz - 1 - (nz - 1 - f0) = f0 by omega]; exact hpos
      · intro i j k hi hj hk hpos'
        obtain ⟨e0, e1, e2⟩ := filePos_inj (by omega) (by omega) (by omega) h0 h1 h2
          (hpos'.trans hpos.symm)
        omega
  · refine ⟨a, fun i j k => filePos sort nx nz ny j (nz - 1 - i) k, ha, ?_, ?_⟩
    · intro i j k hi hj hk
      have hl : filePos sort nx nz ny j (nz - 1 - i) k < xs.length :=
        lt_of_lt_of_eq (filePos_lt (by omega) (by omega) (by omega)) (by rw [hlen]; try ring)
      refine ⟨hl, ?_⟩
      have := hg nx nz ny j (nz - 1 - i) k (nz - 1 - i) j k rfl rfl rfl rfl rfl rfl
        (by omega) hj hk
      rwa [show nz - 1 - (nz - 1 - i) = i by omega, List.getElem?_eq_getElem hl] at this
    · intro p hp
      obtain ⟨f0, f1, f2, h0, h1, h2, hpos⟩ := filePos_surj sort (D0 := nx) (D1 := nz)
        (D2 := ny) (p := p) (lt_of_lt_of_eq hp (by rw [hlen]; try ring))
      refine ⟨nz - 1 - f1, f0, f2, by omega, by assumption, by assumption, ?_, ?_⟩
      · simp only [show nz - 1 - (nz - 1 - f1) = f1 by omega]; exact hpos
      · intro i j k hi hj hk hpos'
        obtain ⟨e0, e1, e2⟩ := filePos_inj (by omega) (by omega) (by omega) h0 h1 h2
          (hpos'.trans hpos.symm)
        omega
  · refine ⟨a, fun i j k => filePos sort ny nz nx k (nz - 1 - i) j, ha, ?_, ?_⟩
    · intro i j k hi hj hk
      have hl : filePos sort ny nz nx k (nz - 1 - i) j < xs.length :=
        lt_of_lt_of_eq (filePos_lt (by omega) (by omega) (by omega)) (by rw [hlen]; try ring)
      refine ⟨hl, ?_⟩
      have := hg ny nz nx k (nz - 1 - i) j (nz - 1 - i) j k rfl rfl rfl rfl rfl rfl
        (by omega) hj hk
      rwa [show nz - 1 - (nz - 1 - i) = i by omega, List.getElem?_eq_getElem hl] at this
    · intro p hp
      obtain ⟨f0, f1, f2, h0, h1, h2, hpos⟩ := filePos_surj sort (D0 := ny) (D1 := nz)
        (D2 := nx) (p := p) (lt_of_lt_of_eq hp (by rw [hlen]; try ring))
      refine ⟨nz - 1 - f1, f2, f0, by omega, by assumption, by assumption, ?_, ?_⟩
      · simp only [show nz - 1 - (nz - 1 - f1) = f1 by omega]; exact hpos
      · intro i j k hi hj hk hpos'
        obtain ⟨e0, e1, e2⟩ := filePos_inj (by omega) (by omega) (by omega) h0 h1 h2
          (hpos'.trans hpos.symm)
        omega
  · refine ⟨a, fun i j k => filePos sort nx ny nz j k (nz - 1 - i), ha, ?_, ?_⟩
    · intro i j k hi hj hk
      have hl : filePos sort nx ny nz j k (nz - 1 - i) < xs.length :=
        lt_of_lt_of_eq (filePos_lt (by omega) (by omega) (by omega)) (by rw [hlen]; try ring)
      refine ⟨hl, ?_⟩
      have := hg nx ny nz j k (nz - 1 - i) (nz - 1 - i) j k rfl rfl rfl rfl rfl rfl
        (by omega) hj hk
      rwa [show nz - 1 - (nz - 1 - i) = i by omega, List.getElem?_eq_getElem hl] at this
    · intro p hp
      obtain ⟨f0, f1, f2, h0, h1, h2, hpos⟩ := filePos_surj sort (D0 := nx) (D1 := ny)
        (D2 := nz) (p := p) (lt_of_lt_of_eq hp (by rw [hlen]; try ring))
      refine ⟨nz - 1 - f2, f0, f1, by omega, by assumption, by assumption, ?_, ?_⟩
      · simp only [show nz - 1 - (nz - 1 - f2) = f2 by omega]; exact hpos
      · intro i j k hi hj hk hpos'
        obtain ⟨e0, e1, e2⟩ := filePos_inj (by omega) (by omega) (by omega) h0 h1 h2
          (hpos'.trans hpos.symm)
        omega
  · refine ⟨a, fun i j k => filePos sort ny nx nz k j (nz - 1 - i), ha, ?_, ?_⟩
    · intro i j k hi hj hk
      have hl : filePos sort ny nx nz k j (nz - 1 - i) < xs.length :=
        lt_of_lt_of_eq (filePos_lt (by omega) (by omega) (by omega)) (by rw [hlen]; try ring)
      refine ⟨hl, ?_⟩
      have := hg ny nx nz k j (nz - 1 - i) (nz - 1 - i) j k rfl rfl rfl rfl rfl rfl
        (by omega) hj hk
      rwa [show nz - 1 - (nz - 1 - i) = i by omega, List.getElem?_eq_getElem hl] at this
    · intro p hp
      obtain ⟨f0, f1, f2, h0, h1, h2, hpos⟩ := filePos_surj sort (D0 := ny) (D1 := nx)
        (D2 := nz) (p := p) (lt_of_lt_of_eq hp (by rw [hlen]; try ring))
      refine ⟨nz - 1 - f2, f1, f0, by omega, by assumption, by assumption, ?_, ?_⟩
      · simp only [show nz - 1 - (nz - 1 - f2) = f2 by omega]; exact hpos
      · intro i j k hi hj hk hpos'
        obtain ⟨e0, e1, e2⟩ := filePos_inj (by omega) (by omega) (by omega) h0 h1 h2
          (hpos'.trans hpos.symm)
        omega

theorem chunks_flatten {w : ℕ} (hw : 0 < w) : ∀ (cs : List (List UInt8)) (n : ℕ),
    (∀ c ∈ cs, c.length = w) → cs.length ≤ n → chunks w cs.flatten n = cs
  | [], n, _, _ => by cases n <;> simp [chunks, hw]
  | c :: cs, n, h, hn => by
    obtain ⟨m, rfl⟩ : ∃ m, n = m + 1 := ⟨n - 1, by simp at hn; omega⟩
    have hc := h c (by simp)
    have ih := chunks_flatten hw cs m (fun c' h' => h c' (by simp [h'])) (by simpa using hn)
    simp only [chunks, List.flatten_cons, List.length_append]
    rw [if_neg (by omega), List.take_left' hc, List.drop_left' hc, ih]

/-- **C17 (byte order).** Values written most significant byte first are read back with
`byte_order="big"`, values written least significant byte first with `byte_order="little"`. -/
theorem C17_byte_order {w : ℕ} (hw : 0 < w) {dec : List UInt8 → V} {enc : V → List UInt8}
    (hl : ∀ v, (enc v).length = w) (hd : ∀ v, dec (enc v) = v) (xs : List V) :
    fromfile w dec "big" (xs.map enc).flatten = .ok xs ∧
    fromfile w dec "little" (xs.map fun v => (enc v).reverse).flatten = .ok xs := by
  have hsum : ∀ l : List (List UInt8), (∀ c ∈ l, c.length = w) → l.length ≤ l.flatten.length := by
    intro l h
    induction l with
    | nil => simp
    | cons c l ih =>
      have := h c (by simp)
      have := ih fun c' h' => h c' (by simp [h'])
      simp only [List.flatten_cons, List.length_append, List.length_cons]; omega
  have h1 : ∀ c ∈ xs.map enc, c.length = w := by
    intro c hc; obtain ⟨v, -, rfl⟩ := List.mem_map.1 hc; exact hl v
  have h2 : ∀ c ∈ xs.map fun v => (enc v).reverse, c.length = w := by
    intro c hc; obtain ⟨v, -, rfl⟩ := List.mem_map.1 hc; simp [hl v]
  constructor
  · unfold fromfile
    rw [if_pos rfl, chunks_flatten hw _ _ h1 (hsum _ h1), List.map_map]
    simp [Function.comp_def, hd]
  · unfold fromfile
    rw [if_neg (by decide), if_pos rfl, chunks_flatten hw _ _ h2 (hsum _ h2), List.map_map]
    simp [Function.comp_def, hd]

/-- **C17 (rejections).** Missing sizes, an unknown byte order, an `axes_order` of length three
that is not a permutation and a file of the wrong size raise. -/
theorem C17_rejects (w : ℕ) (dec : List UInt8 → V) (bytes : List UInt8) (bo sort : String) :
    (∀ nz nx ny axesOrder, nz = none ∨ nx = none ∨ ny = none →
      ∃ e, readBin w dec bytes nz nx ny bo axesOrder sort = .error e) ∧
    (∀ nz nx ny axesOrder, bo ≠ "big" → bo ≠ "little" →
      ∃ e, readBin w dec bytes nz nx ny bo axesOrder sort = .error e) ∧
    (∀ nz nx ny a0 a1 a2, ¬ [a0, a1, a2].Perm [0, 1, 2] →
      ∃ e, readBin w dec bytes nz nx ny bo [a0, a1, a2] sort = .error e) ∧
    (∀ nz nx ny a0 a1 a2 xs, fromfile w dec bo bytes = .ok xs → xs.length ≠ nz * nx * ny →
      ∃ e, readBin w dec bytes (some nz) (some nx) (some ny) bo [a0, a1, a2] sort = .error e) := by
  have hperm : ∀ nz nx ny a0 a1 a2, ¬ [a0, a1, a2].Perm [0, 1, 2] →
      ∃ e, readBin w dec bytes nz nx ny bo [a0, a1, a2] sort = .error e := by
    intro nz nx ny a0 a1 a2 hp
    match nz, nx, ny with
    | none, _, _ => exact ⟨_, rfl⟩
    | some _, none, _ => exact ⟨_, rfl⟩
    | some _, some _, none => exact ⟨_, rfl⟩
    | some nz, some nx, some ny =>
      simp only [readBin, bind, Except.bind]
      split
      · exact ⟨_, rfl⟩
      · rename_i axes hax
        split
        · exact ⟨_, rfl⟩
        · rename_i ys hys
          split
          · exact ⟨_, rfl⟩
          · rename_i R hR
            have hT : ∃ e, transpose R [a0, a1, a2] = .error e := by
              unfold transpose
              split_ifs with c1 c2 c3
              · exact ⟨_, rfl⟩
              · exact ⟨_, rfl⟩
              rotate_left
              · exact ⟨_, rfl⟩
              · exfalso
                apply hp
                have c1 : 3 = R.shape.length := by simpa using c1
                rw [← c1] at c2
                simp only [List.any_cons, List.any_nil, Bool.or_false, Bool.or_eq_true,
                  decide_eq_true_eq, not_or, not_le] at c2
                have hs : [a0, a1, a2] ⊆ [0, 1, 2] := by
                  intro x hx
                  simp only [List.mem_cons, List.not_mem_nil, or_false] at hx ⊢
                  omega
                exact (List.subperm_of_subset c3 hs).perm_of_length_le (by simp)
            obtain ⟨e, he⟩ := hT
            rw [he]
            exact ⟨_, rfl⟩
  refine ⟨?_, ?_, hperm, ?_⟩
  · intro nz nx ny ao h
    match nz, nx, ny, h with
    | none, _, _, _ => exact ⟨_, rfl⟩
    | some _, none, _, _ => exact ⟨_, rfl⟩
    | some _, some _, none, _ => exact ⟨_, rfl⟩
    | some _, some _, some _, h => simp at h
  · intro nz nx ny ao h1 h2
    match nz, nx, ny with
    | none, _, _ => exact ⟨_, rfl⟩
    | some _, none, _ => exact ⟨_, rfl⟩
    | some _, some _, none => exact ⟨_, rfl⟩
    | some nz, some nx, some ny =>
      simp only [readBin, bind, Except.bind, fromfile, if_neg h1, if_neg h2]
      split <;> exact ⟨_, rfl⟩
  · intro nz nx ny a0 a1 a2 xs hf hne
    by_cases hp : [a0, a1, a2].Perm [0, 1, 2]
    · have hg : ∃ axes, gather [nz, nx, ny] (argsort [a0, a1, a2]) = .ok axes ∧
          axes.prod = nz * nx * ny := by
        obtain ⟨g1, g2, g3, g4, g5, g6⟩ := gather_argsort (nz := nz) (nx := nx) (ny := ny)
        rcases perm3 hp with h | h | h | h | h | h <;> rw [h]
        · exact ⟨_, g1, by simp; ring⟩
        · exact ⟨_, g2, by simp; ring⟩
        · exact ⟨_, g3, by simp; ring⟩
        · exact ⟨_, g4, by simp; ring⟩
        · exact ⟨_, g5, by simp; ring⟩
        · exact ⟨_, g6, by simp; ring⟩
      obtain ⟨axes, hax, hprod⟩ := hg
      simp only [readBin, bind, Except.bind, hax, hf, reshape]
      rw [if_pos (by rw [hprod]; exact fun h => hne h.symm)]
      exact ⟨_, rfl⟩
    · exact hperm _ _ _ _ _ _ hp

/-- A concrete case: 2x2x3 values, `axes_order=(1,2,0)`, order
"F", one byte per value: the hypotheses hold. -/
example : [1, 2, 0].Perm [0, 1, 2] ∧
    fromfile 1 (fun b => b.map UInt8.toNat) "big" [0, 1, 2, 3, 4, 5, 6, 7, 8, 9, 10, 11] =
      .ok [[0], [1], [2], [3], [4], [5], [6], [7], [8], [9], [10], [11]] := by
  constructor
  · decide
  · rfl

example : filePos "F" 3 2 2 2 1 1 = 11 := by decide

/-! ### C18 -/

theorem segyLoop_spec {nz nx : ℕ} : ∀ (trs : List (List V)) (n : ℕ) (vp : ℕ → ℕ → Option V),
    (∀ t ∈ trs, t.length = nz) → n + trs.length = nx →
    ∃ vp', segyLoop nz nx trs n vp = .ok vp' ∧
      ∀ i j, i < nz → j < nx → vp' i j =
        if j < n then vp i j else (trs.getD (j - n) [])[i]?
  | [], n, vp, _, hn => ⟨vp, rfl, fun i j _ hj => by
      have hn' : n = nx := by simpa using hn
      rw [if_pos (by omega)]⟩
  | t :: trs, n, vp, h, hn => by
    have ht := h t (by simp)
    obtain ⟨vp', h1, h2⟩ := segyLoop_spec (nx := nx) trs (n + 1) (setColumn nz nx n t vp)
      (fun t' h' => h t' (by simp [h'])) (by rw [← hn, List.length_cons]; omega)
    refine ⟨vp', ?_, fun i j hi hj => ?_⟩
    · unfold segyLoop; rw [if_neg (by simpa using ht)]; exact h1
    · rw [h2 i j hi hj]
      unfold setColumn
      rcases Nat.lt_trichotomy j n with hc | hc | hc
      · rw [if_pos (by omega), if_neg (by omega), if_pos hc]
      · subst hc; simp [hi, hj]
      · rw [if_neg (by omega), if_neg (by omega)]
        obtain ⟨m, rfl⟩ : ∃ m, j = n + 1 + m := ⟨j - (n + 1), by omega⟩
        rw [show n + 1 + m - (n + 1) = m by omega, show n + 1 + m - n = m + 1 by omega]
        simp

/-- **C18.** Reading a SEG-Y file with `nx` traces of `nz` samples gives an array of shape
`(nz, nx)` in which, for every `k`, column `k` read from top to bottom is trace `k` reversed. -/
theorem C18_read_segy [Zero V] (nz : ℕ) (traces : List (List V)) (h : ∀ t ∈ traces, t.length = nz) :
    ∃ a, readSegy nz traces = .ok (a, nz, traces.length, 0) ∧ a.shape = [nz, traces.length] ∧
      ∀ (k : ℕ) (hk : k < traces.length),
        (List.range nz).map (fun i => a.get [i, k]) = traces[k].reverse.map some := by
  obtain ⟨vp, h1, h2⟩ := segyLoop_spec (nz := nz) (nx := traces.length) traces 0
    (fun i j => if i < nz ∧ j < traces.length then some 0 else none) h (by simp)
  obtain ⟨a, ha, has, hag⟩ : ∃ a, flipud (ofMat nz traces.length vp) = .ok a ∧
      a.shape = [nz, traces.length] ∧ ∀ i j, i < nz → a.get [i, j] = vp (nz - 1 - i) j := by
    refine ⟨_, rfl, rfl, fun i j hi => ?_⟩
    simp [hi, ofMat]
  refine ⟨a, ?_, has, ?_⟩
  · simp only [readSegy, bind, Except.bind, pure, Except.pure, h1, ha]
  · intro k hk
    have hlen := h _ (List.getElem_mem hk)
    apply List.ext_getElem
    · simp [hlen]
    · intro i hi _
      have hi' : i < nz := by simpa using hi
      simp only [List.getElem_map, List.getElem_range, List.getElem_reverse]
      rw [hag i k hi', h2 _ _ (by omega) hk, if_neg (by omega), Nat.sub_zero,
        ← List.getElem_eq_getD (h := hk), List.getElem?_eq_getElem (by omega)]
      simp [hlen]

/-- Concrete: three traces of two samples. -/
example : ∀ t ∈ ([[1, 2], [3, 4], [5, 6]] : List (List ℕ)), t.length = 2 := by decide

/-- A SEG-Y file name selects the SEG-Y reader, any other name the binary reader. -/
theorem C18_dispatch [Zero V] (fn : String) (samples : ℕ) (traces : List (List V)) (w : ℕ)
    (dec : List UInt8 → V) (bytes : List UInt8) (nz nx ny : Option ℕ) (bo : String)
    (ao : List ℕ) (sort : String) :
    (fn.endsWith ".segy" = true → readVelocityModel fn samples traces w dec bytes nz nx ny bo ao sort =
      readSegy samples traces) ∧
    (fn.endsWith ".segy" = false → readVelocityModel fn samples traces w dec bytes nz nx ny bo ao sort =
      readBin w dec bytes nz nx ny bo ao sort) := by
  constructor <;> intro h <;> simp [readVelocityModel, h]

end SM.ReadBin
