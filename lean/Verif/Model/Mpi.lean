import Mathlib.Logic.Function.Basic
import Mathlib.Order.Basic

/-!
# Message passing

Semantics of the mpi4py calls used by SeismicMesh/migration/migration.py (`comm.send`, `comm.recv`, `comm.bcast`,
`comm.Reduce`). mpi4py and the MPI library are not part of the repository; this file fixes what is assumed of them (MPI
standard, blocking standard-mode send, non-overtaking point-to-point messages, collectives that may or may not
synchronise). Everything an MPI implementation may choose is left open: the interleaving of the ranks, whether and when
a message is buffered (so that its sender continues before it is received), and whether a collective lets
a rank continue before all ranks have entered it.
-/

namespace SM.Mpi

/-- The rest of the program of one rank: what it does next. `M` are messages, `R` results. The mpi4py calls of migration/migration.py:47-51, 61-68, 90-102, 160-177 and mesh_generator.py:843, 875. -/
inductive Proc (M R : Type)
  /-- the call has returned -/
  | ret (x : R)
  /-- an exception was raised; the rank does nothing more -/
  | raised (e : String)
  /-- `comm.send(m, dest, tag)` -/
  | send (dest tag : ℕ) (m : M) (k : Proc M R)
  /-- inside `comm.send`: the message has been offered to the receiver as number `i` of its channel -/
  | wait (dest tag i : ℕ) (k : Proc M R)
  /-- `comm.recv(source, tag)` -/
  | recv (src tag : ℕ) (k : M → Proc M R)
  /-- a collective operation: this rank contributes `m` and needs the contributions of the ranks `need` -/
  | coll (need : List ℕ) (m : M) (k : List M → Proc M R)
  /-- inside the collective operation number `j` -/
  | inColl (j : ℕ) (need : List ℕ) (k : List M → Proc M R)

namespace Proc

variable {M R S : Type}

/-- Sequential composition. (Python statements in sequence, migration/migration.py and mesh_generator.py.) -/
def bind : Proc M R → (R → Proc M S) → Proc M S
  | ret x, f => f x
  | raised e, _ => raised e
  | send d t m k, f => send d t m (k.bind f)
  | wait d t i k, f => wait d t i (k.bind f)
  | recv s t k, f => recv s t fun m => (k m).bind f
  | coll n m k, f => coll n m fun l => (k l).bind f
  | inColl j n k, f => inColl j n fun l => (k l).bind f

instance : Monad (Proc M) where
  pure := ret
  bind := bind

/-- The same program as part of a larger one whose messages are of type `M'` (mpi4py sends Python objects of any type): a message of an unexpected
type makes the receiver fail. migration/migration.py:47-177, mesh_generator.py:843, 875. -/
def embed {M' : Type} (inj : M → M') (prj : M' → Option M) : Proc M R → Proc M' R
  | ret x => ret x
  | raised e => raised e
  | send d t m k => send d t (inj m) (k.embed inj prj)
  | wait d t i k => wait d t i (k.embed inj prj)
  | recv s t k => recv s t fun m' => (prj m').elim (raised "TypeError") fun m => (k m).embed inj prj
  | coll n m k => coll n (inj m) fun l => (l.mapM prj).elim (raised "TypeError") fun ms => (k ms).embed inj prj
  | inColl j n k => inColl j n fun l => (l.mapM prj).elim (raised "TypeError") fun ms => (k ms).embed inj prj

end Proc

variable {M R : Type}

/-- What one rank has done so far and what it will do. (MPI run time, not in the repository; used by migration/migration.py:16-183.) -/
structure Local (M R : Type) where
  proc : Proc M R
  /-- messages sent by this rank to (destination, tag), oldest first -/
  sent : ℕ → ℕ → List M
  /-- number of messages this rank has received from (source, tag) -/
  got : ℕ → ℕ → ℕ
  /-- this rank's contributions to the collectives it has entered -/
  contrib : List M

/-- State of all ranks. (MPI run time; used by migration/migration.py:16-183.) -/
abbrev State (M R : Type) := ℕ → Local M R

/-- Add one entry. (MPI run time; message counters of migration/migration.py:161-177.) -/
def bump (f : ℕ → ℕ → ℕ) (a t : ℕ) : ℕ → ℕ → ℕ := fun b u => if b = a ∧ u = t then f b u + 1 else f b u
/-- Append a message to a channel. (MPI run time; migration/migration.py:161, 172.) -/
def push (f : ℕ → ℕ → List M) (a t : ℕ) (m : M) : ℕ → ℕ → List M := fun b u => if b = a ∧ u = t then f b u ++ [m] else f b u

/-- The next step of rank `r` among `P` ranks, if it can do one. With `strict` a send returns only when its message has
been received and a collective only when all ranks have entered it; without it, a send may return at any time (the message is
buffered) and a collective as soon as the contributions needed by this rank are there. (MPI run time; migration/migration.py:16-183.) -/
def next (P : ℕ) (strict : Bool) (s : State M R) (r : ℕ) : Option (Local M R) :=
  match (s r).proc with
  | .ret _ => none
  | .raised _ => none
  | .send d t m k =>
      some { s r with proc := .wait d t ((s r).sent d t).length k, sent := push (s r).sent d t m }
  | .wait d t i k =>
      if strict = true ∧ ¬ i < (s d).got r t then none else some { s r with proc := k }
  | .recv a t k =>
      match ((s a).sent r t)[(s r).got a t]? with
      | some m => some { s r with proc := k m, got := bump (s r).got a t }
      | none => none
  | .coll need m k =>
      some { s r with proc := .inColl (s r).contrib.length need k, contrib := (s r).contrib ++ [m] }
  | .inColl j need k =>
      if strict = true ∧ ¬ ∀ i < P, j < (s i).contrib.length then none
      else match need.mapM fun i => (s i).contrib[j]? with
        | some ms => some { s r with proc := k ms }
        | none => none

/-- One step of one of the `P` ranks. (MPI run time; migration/migration.py:16-183.) -/
def Step (P : ℕ) (strict : Bool) (s s' : State M R) : Prop :=
  ∃ r < P, ∃ l, next P strict s r = some l ∧ s' = Function.update s r l

/-- An execution of `n` steps. (MPI run time; migration/migration.py:16-183.) -/
inductive Run (P : ℕ) (strict : Bool) : ℕ → State M R → State M R → Prop
  | nil (s) : Run P strict 0 s s
  | cons {n s s' s''} : Step P strict s s' → Run P strict n s' s'' → Run P strict (n + 1) s s''

/-- All ranks are about to run their program, nothing has been communicated yet. (Start of mesh_generator.py:291 on all ranks.) -/
def init (prog : ℕ → Proc M R) : State M R := fun r => ⟨prog r, fun _ _ => [], fun _ _ => 0, []⟩

/-- Every message has been received. (Specification.) -/
def Delivered (P : ℕ) (s : State M R) : Prop :=
  ∀ a < P, ∀ b < P, ∀ t, (s b).got a t = ((s a).sent b t).length

/-- The `P` programs complete with results `out`, under every schedule and every buffering behaviour: executions are
bounded; as long as not all ranks have returned some rank can continue even if nothing is buffered; and when all have
returned their results are `out` and no message is left over. (Specification; migration/migration.py:16-183.) -/
def Completes (P : ℕ) (prog : ℕ → Proc M R) (out : ℕ → R) : Prop :=
  ∃ N, ∀ n s, Run P false n (init prog) s → n ≤ N ∧
    ((∃ s', Step P true s s') ∨ ((∀ r < P, (s r).proc = .ret (out r)) ∧ Delivered P s))

/-- `comm.send(m, dest=d, tag=t)`. migration/migration.py:47, 61, 99-100, 161, 172. -/
def send (d t : ℕ) (m : M) : Proc M Unit := .send d t m (.ret ())
/-- `comm.recv(source=a, tag=t)`. migration/migration.py:51, 63, 102-104, 165, 177. -/
def recv (a t : ℕ) : Proc M M := .recv a t .ret
/-- `raise`. (Python; e.g. mesh_generator.py:440.) -/
def raise (e : String) : Proc M R := .raised e
/-- the value of a one-element list. (Helper of `bcast`, migration/migration.py:68.) -/
def single : List M → Proc M M
  | [x] => .ret x
  | _ => .raised ""
/-- `comm.bcast(m, root)`: every rank gets the root's contribution. migration/migration.py:68; mesh_generator.py:875. -/
def bcast (root : ℕ) (m : M) : Proc M M := .coll [root] m single
/-- `comm.Reduce(m, root)`: the root gets all contributions, in rank order; the other ranks nothing. migration/migration.py:90-91. -/
def reduce (P rank root : ℕ) (m : M) : Proc M (List M) :=
  .coll (if rank = root then List.range P else []) m .ret

/-- A result or an exception of the serial code. (Python exceptions in mesh_generator.py, migration/migration.py.) -/
def lift (x : Except String R) : Proc M R :=
  match x with
  | .ok a => .ret a
  | .error e => .raised e

end SM.Mpi
