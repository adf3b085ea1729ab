import Verif.Model.Doc
import Verif.Model.Map
/-!
# Documents shared between threads — `crates/ass-editor/core/thread_safety/{sync_document,document_pool,scoped_lock}.rs`

Threads are numbered.  What a command or a closure does with the document is a tree of small steps, between which other threads may run;
a schedule is the list of the threads that are given a turn.  `std::sync::Mutex` and `RwLock` are modelled with their poisoning: a lock
is poisoned when it is given back by a thread that panics while it may change what the lock protects.  Only one operation at a time
per thread: a thread that holds a guard and asks for another one waits for itself, as the documentation of the locks says.
-/
namespace Verif.Sync
open Verif

/-- What is done with write access: finish with a result, panic, or change the document and go on depending on what was seen. -/
inductive Prog (D R : Type) where
  | ret (r : R)
  | panic
  | step (upd : D → D) (next : D → Prog D R)

/-- What is done with read access. -/
inductive Look (D R : Type) where
  | ret (r : R)
  | panic
  | look (next : D → Look D R)

/-- The operations of `SyncDocument`: `execute_command` (lines 71-83), `with_write` and everything else that takes the write lock
(lines 62-68, 129-135, 150-155, scoped_lock.rs), and everything that takes the read lock (lines 53-59, 96-126, 138-147). -/
inductive Op (D R : Type) where
  | exec (p : Prog D R)
  | write (p : Prog D R)
  | read (p : Look D R)

/-- How an operation ended. -/
inductive Res (R : Type) where
  | ok (r : R)
  | err
  | panic
deriving DecidableEq

/-- What a thread is at: between operations; in `execute_command` with the command lock, waiting for the write lock; with the write lock
(`cmd`: and the command lock); having given back the write lock but not yet the command lock (`bad`: while panicking); with a read lock. -/
inductive Act (D R : Type) where
  | idle
  | locked (p : Prog D R)
  | writing (cmd : Bool) (p : Prog D R)
  | leaving (bad : Bool)
  | reading (p : Look D R)

/-- A thread with the operations it has not finished, the present one first. -/
structure Thread (D R : Type) where
  todo : List (Op D R)
  act : Act D R

/-- Both locks, the document and the threads.  `log` is no part of the program: it lists the operations with their threads and results in
the order in which they gave back the lock. -/
structure St (D R : Type) where
  doc : D
  cmd : Option Nat
  cmdBad : Bool
  writer : Option Nat
  readers : List Nat
  bad : Bool
  threads : Nat → Thread D R
  log : List (Nat × Op D R × Res R)

variable {D R : Type}

/-- Thread `t` becomes `th`. -/
def St.set (s : St D R) (t : Nat) (th : Thread D R) : St D R := { s with threads := fun u => if u = t then th else s.threads u }

/-- Thread `t` is done with the operation `op`. -/
def St.done (s : St D R) (t : Nat) (op : Op D R) (r : Res R) (rest : List (Op D R)) (a : Act D R) : St D R :=
  { s.set t ⟨rest, a⟩ with log := s.log ++ [(t, op, r)] }

/-- `Mutex::lock`, lines 73-78: nothing while another thread has it; an error when it is poisoned. -/
def lockCmd (s : St D R) (t : Nat) (p : Prog D R) (rest : List (Op D R)) : Option (St D R) :=
  match s.cmd with
  | some _ => none
  | none =>
    if s.cmdBad then some (s.done t (.exec p) .err rest .idle)
    else some { s.set t ⟨.exec p :: rest, .locked p⟩ with cmd := some t }

/-- `RwLock::write`, lines 62-68: nothing while there are a writer or readers; an error when it is poisoned, upon which the command lock is
given back. -/
def lockWrite (s : St D R) (t : Nat) (op : Op D R) (cmd : Bool) (p : Prog D R) (rest : List (Op D R)) : Option (St D R) :=
  if s.writer = none ∧ s.readers = [] then
    if s.bad then some { s.done t op .err rest .idle with cmd := if cmd then none else s.cmd }
    else some { s.set t ⟨op :: rest, .writing cmd p⟩ with writer := some t }
  else none

/-- `RwLock::read`, lines 53-59. -/
def lockRead (s : St D R) (t : Nat) (p : Look D R) (rest : List (Op D R)) : Option (St D R) :=
  if s.writer = none then
    if s.bad then some (s.done t (.read p) .err rest .idle)
    else some { s.set t ⟨.read p :: rest, .reading p⟩ with readers := t :: s.readers }
  else none

/-- One step with the write lock; at the end the guards are dropped, the write lock first. -/
def stepWrite (s : St D R) (t : Nat) (op : Op D R) (cmd : Bool) (rest : List (Op D R)) : Prog D R → St D R
  | .ret r => { s.done t op (.ok r) rest (if cmd then .leaving false else .idle) with writer := none }
  | .panic => { s.done t op .panic rest (if cmd then .leaving true else .idle) with writer := none, bad := true }
  | .step upd next => { s.set t ⟨op :: rest, .writing cmd (next s.doc)⟩ with doc := upd s.doc }

/-- One step with a read lock; read guards do not poison. -/
def stepRead (s : St D R) (t : Nat) (op : Op D R) (rest : List (Op D R)) : Look D R → St D R
  | .ret r => { s.done t op (.ok r) rest .idle with readers := s.readers.erase t }
  | .panic => { s.done t op .panic rest .idle with readers := s.readers.erase t }
  | .look next => s.set t ⟨op :: rest, .reading (next s.doc)⟩

/-- Beginning the next operation, if there is one. -/
def start (s : St D R) (t : Nat) : List (Op D R) → Option (St D R)
  | [] => none
  | .exec p :: rest => lockCmd s t p rest
  | .write p :: rest => lockWrite s t (.write p) false p rest
  | .read p :: rest => lockRead s t p rest

/-- Giving back the command lock. -/
def unlockCmd (s : St D R) (t : Nat) (todo : List (Op D R)) (b : Bool) : St D R :=
  { s.set t ⟨todo, .idle⟩ with cmd := none, cmdBad := s.cmdBad || b }

/-- One step of thread `t`; nothing when it has to wait or has finished. -/
def step (s : St D R) (t : Nat) : Option (St D R) :=
  match (s.threads t).act, (s.threads t).todo with
  | .idle, todo => start s t todo
  | .leaving b, todo => some (unlockCmd s t todo b)
  | .locked p, op :: rest => lockWrite s t op true p rest
  | .writing cmd p, op :: rest => some (stepWrite s t op cmd rest p)
  | .reading p, op :: rest => some (stepRead s t op rest p)
  | _, [] => none

/-- `SyncDocument::new`, lines 40-45, with what the threads are going to do. -/
def init (doc : D) (todo : Nat → List (Op D R)) : St D R :=
  ⟨doc, none, false, none, [], false, fun t => ⟨todo t, .idle⟩, []⟩

/-- A schedule: a turn given to a thread that has to wait changes nothing. -/
def sched (s : St D R) : List Nat → St D R
  | [] => s
  | t :: l => sched ((step s t).getD s) l

/-! ## `execute_command` and the history -/

/-- `execute_command`, lines 71-83, for the insert command: `command.execute` is called, which changes the text without recording it
(text_commands.rs lines 52-60). -/
def execInsert (d : Doc.Doc) (pos : Nat) (t : Str) : Outcome Unit × Doc.Doc :=
  match Doc.insertRaw d.text pos t with
  | (o, s) => (o, { d with text := s })

/-! ## The document pool -/

/-- `add_document`, document_pool.rs lines 34-47. -/
def poolAdd {V : Type} (pool : Map Str V) (id : Str) (doc : V) : Str × Map Str V := (id, pool.insert id doc)

/-- `get_document`, lines 50-63. -/
def poolGet {V : Type} (pool : Map Str V) (id : Str) : Option V := pool.get id

/-- `remove_document`, lines 66-76. -/
def poolRemove {V : Type} (pool : Map Str V) (id : Str) : Map Str V := pool.erase id

/-- `list_documents` and `document_count`, lines 79-100. -/
def poolList {V : Type} (pool : Map Str V) : List Str := pool.map (·.1)

/-- `generate_id`, constructors.rs lines 169-179: the time in nanoseconds. -/
def newId (now : Nat) : Str := "doc_".toList ++ Nat.toDigits 10 now

end Verif.Sync
