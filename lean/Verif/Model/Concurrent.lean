import Verif.Model.Utilities
import Verif.Model.System

/-!
# Concurrent calls of `read_from_file`, `write_to_file` and `append_to_file`

`rsfile_utilities.py:86-222` with `locking=True`, by any number of threads of any number of processes, on one file (unix).
The locks are those of `System`: opening, locking and closing of the streams are actions there.  In between, a call does
one method call of its stream after the other on the common content of the file: `rsopen` (`rsfile_factories.py:275-338`)
erases the file and builds the layers after `lock_file` has returned; then comes the body of the `with` statement; then
`close`, which flushes first and gives up the lock in the end.

Simplifications: the file exists and keeps its name; a method call of a stream is one atomic action on the content; the
blocks of `rsopen` that ask for the block size and for a terminal are left out (the size of the buffer is a parameter); a
process that ends does so without cleaning up; a child process does not use the streams that its parent had when it forked;
nothing else writes to the file.
-/

set_option autoImplicit false

namespace Verif

/-- What is to be done with the file. -/
inductive Task where
  /-- `read_from_file` -/
  | load (binary : Bool)
  /-- `write_to_file` -/
  | store (data : Chunk) (sync : Bool)
  /-- `append_to_file` -/
  | add (data : Chunk) (sync : Bool)
  deriving DecidableEq

namespace Task

def isLoad : Task → Bool
  | load _ => true
  | _ => false

def isStore : Task → Bool
  | store .. => true
  | _ => false

def isAdd : Task → Bool
  | add .. => true
  | _ => false

/-- Neither `T` nor `B` in the mode: text, `rsfile_utilities.py:102-103,157-158,206-207`. -/
def binary : Task → Bool
  | load b => b
  | store d _ => !d.isStr
  | add d _ => !d.isStr

end Task

/-- A call: the task, the buffer size that results from the arguments (0 for none), whether the text stream flushes lines
(`rsfile_factories.py:293-296`), `newline`, and what the system will answer. -/
structure Job where
  task : Task
  size : Nat
  line : Bool
  newline : Option Newline
  io : List OsAns
  deriving DecidableEq

/-- The result of a call; `None` is `none`. -/
abbrev Result := Except Exn (Option Chunk)

namespace Job

/-- The default of `shared` in `lock_file`, `rsfileio_abstract.py:553-557`: the stream is not writable. -/
def shared (k : Job) : Bool := k.task.isLoad

/-- The raw stream, its position being where the constructor left it. -/
def raw (k : Job) (file : Bytes) (pos : Nat) : Raw :=
  { platform := .unix, junk := fun _ => 0, closed := false, readable := k.task.isLoad, writable := !k.task.isLoad,
    seekable := true, append := k.task.isAdd, data := file, pos := pos, sched := k.io, events := [],
    disk := [.content file] }

/-- The position after the constructor: the end in append mode, `rsfileio_abstract.py:190-196`. -/
def startPos (k : Job) (file : Bytes) : Nat := if k.task.isAdd then file.length else 0

/-- The layers, `rsfile_factories.py:311-338`. -/
def layers (S : Setting) (k : Job) (raw : Raw) : Except Exn (AnyStream S.codec) :=
  if k.size = 0 then
    if k.task.binary then .ok (.raw raw) else .error .badValueType
  else
    match Buf.create (if k.task.isLoad then .reader else .writer) k.size raw with
    | .error e => .error e
    | .ok b =>
      if k.task.binary then .ok (.buf b)
      else
        match Txt.create (k.newline.getD .auto) k.line S.linesep b with
        | (.error e, _) => .error e
        | (.ok _, t) => .ok (.txt t)

/-- `rsopen` after the lock was obtained, `rsfile_factories.py:286-338`: the stream or the exception, and the content of
the file. -/
def prepare (S : Setting) (k : Job) (pos : Nat) (file : Bytes) : Except Exn (AnyStream S.codec) × Bytes :=
  if k.task.isStore then
    match Raw.truncate (some 0) true (k.raw file pos) with
    | (.error e, s) => (.error e, s.data)
    | (.ok _, s) => (k.layers S s, s.data)
  else (k.layers S (k.raw file pos), file)

end Job

/-- What the body of the `with` statement does next. -/
inductive Todo where
  /-- `myfile.read()`, after these blocks, `rsfile_utilities.py:118` -/
  | reading (blocks : List Chunk)
  /-- `myfile.write(data)`, `rsfile_utilities.py:174,219` -/
  | writing
  /-- `myfile.flush()`, `rsfile_utilities.py:175,220` -/
  | flushing
  /-- `myfile.sync()`, `rsfile_utilities.py:177,222` -/
  | syncing
  /-- `myfile.close()`, `IOBase.__exit__`; the body returned or raised this -/
  | closing (r : Result)

/-- Where a call is. -/
inductive Phase (C : Codec) where
  /-- the raw stream exists; `rsfile_factories.py:275` -/
  | opened (pos : Nat)
  /-- in `raw.lock_file(timeout=timeout)`, `rsfile_factories.py:284` -/
  | asking (pos : Nat)
  /-- `lock_file` has returned -/
  | locked (pos : Nat)
  /-- in the `with` statement -/
  | inside (s : AnyStream C) (todo : Todo)
  /-- everything is done but `raw.close()` -/
  | leaving (r : Result)
  /-- `lock_file` raised; `raw.close()` is left, `rsfile_factories.py:339-341` -/
  | refused

namespace Job

/-- The stream as it sees the present content. -/
def see {C : Codec} (s : AnyStream C) (file : Bytes) : AnyStream C :=
  match s with
  | .raw s => .raw { s with data := file }
  | .buf b => .buf { b with raw := { b.raw with data := file } }
  | .txt t => .txt { t with buf := { t.buf with raw := { t.buf.raw with data := file } } }

/-- The data of the task. -/
def data (k : Job) : Chunk :=
  match k.task with
  | .load _ => .bytes []
  | .store d _ => d
  | .add d _ => d

/-- `sync=True`. -/
def sync (k : Job) : Bool :=
  match k.task with
  | .load _ => false
  | .store _ s => s
  | .add _ s => s

/-- What comes after `todo` returned or raised. -/
def after (k : Job) : Todo → Except Exn (Option Chunk) → Todo
  | .reading blocks, .ok (some c) =>
    if c.falsy then .closing ((Chunk.join k.task.binary blocks).map some) else .reading (blocks ++ [c])
  | .reading blocks, .ok none => .closing ((Chunk.join k.task.binary blocks).map some)
  | .writing, .ok _ => .flushing
  | .flushing, .ok _ => if k.sync then .syncing else .closing (.ok none)
  | .syncing, .ok _ => .closing (.ok none)
  | .closing r, _ => .closing r
  | _, .error e => .closing (.error e)

/-- The method call. -/
def method (S : Setting) (k : Job) : Todo → PyM (AnyStream S.codec) (Option Chunk)
  | .reading _ => AnyStream.read
  | .writing => do AnyStream.write k.data; pure none
  | .flushing => do AnyStream.flush; pure none
  | .syncing => do AnyStream.sync S.fdatasync; pure none
  | .closing _ => do AnyStream.close; pure none

/-- The first thing to do. -/
def first (k : Job) : Todo := if k.task.isLoad then .reading [] else .writing

/-- The phase after that; an exception of `close` replaces that of the body. -/
def next {C : Codec} (k : Job) (s : AnyStream C) : Todo → Except Exn (Option Chunk) → Phase C
  | .closing _, .error e => .leaving (.error e)
  | .closing r, .ok _ => .leaving r
  | todo, r => .inside s (k.after todo r)

/-- One action of a call that holds the lock: the next phase and the content of the file. -/
def work (S : Setting) (k : Job) (file : Bytes) : Phase S.codec → Option (Phase S.codec × Bytes)
  | .locked pos =>
    match k.prepare S pos file with
    | (.error e, file) => some (.leaving (.error e), file)
    | (.ok s, file) => some (.inside s k.first, file)
  | .inside s todo =>
    match k.method S todo (see s file) with
    | (r, s) => some (k.next s todo r, s.theRaw.data)
  | _ => none

end Job

/-- What can be seen of the calls. -/
inductive CallEvent where
  /-- stream `sid` of process `pid` was opened for a call -/
  | began (i : Nat × Nat) (k : Job)
  /-- the call is over and gives up the lock -/
  | ended (i : Nat × Nat) (r : Result)
  /-- the call could not get the lock and raises -/
  | refused (i : Nat × Nat)
  /-- a process is gone, with its calls -/
  | gone (pid : Nat)
  deriving DecidableEq

/-- The processes with their locks, the content of the file and the calls. -/
structure Crowd (S : Setting) where
  sys : World
  file : Bytes
  calls : Nat × Nat → Option (Job × Phase S.codec)

namespace Crowd

variable {S : Setting}

def init (file : Bytes) : Crowd S := ⟨World.init, file, fun _ => none⟩

/-- The call on stream `i` is now in phase `ph`. -/
def put (w : Crowd S) (i : Nat × Nat) (k : Job) (ph : Phase S.codec) : Nat × Nat → Option (Job × Phase S.codec) :=
  fun j => if j = i then some (k, ph) else w.calls j

def drop (w : Crowd S) (i : Nat × Nat) : Nat × Nat → Option (Job × Phase S.codec) :=
  fun j => if j = i then none else w.calls j

/-- What an event of the system means for the calls. -/
def notice (calls : Nat × Nat → Option (Job × Phase S.codec)) : Spec.Event → Nat × Nat → Option (Job × Phase S.codec)
  | .locked p s _ _ _ _ => fun j =>
    if j = (p, s) then
      match calls j with
      | some (k, .asking pos) => some (k, .locked pos)
      | x => x
    else calls j
  | .lockFailed p s _ _ _ _ => fun j =>
    if j = (p, s) then
      match calls j with
      | some (k, .asking _) => some (k, .refused)
      | x => x
    else calls j
  | .exited p => fun j => if j.1 = p then none else calls j
  | _ => calls

/-- What the log says about an event of the system. -/
def report : Spec.Event → List CallEvent
  | .exited p => [.gone p]
  | _ => []

/-- The stream that an action of a process is about, if it is called for. -/
def aimedAt : Label → Option (Nat × Nat)
  | .act p (.lockCall _ s _ _ _ _) => some (p, s)
  | .act p (.unlock s _ _) => some (p, s)
  | .act p (.close s) => some (p, s)
  | _ => none

/-- The actions. -/
inductive Move where
  /-- an action of the system; the streams of the calls are used by nobody else -/
  | sys (l : Label)
  /-- a thread calls one of the functions: the raw stream `sid` is opened on descriptor `fd` -/
  | start (pid sid fd : Nat) (k : Job)
  /-- thread `tid` calls `raw.lock_file(timeout=timeout)`: the whole file; `llb` as in `System` -/
  | ask (pid tid sid : Nat) (llb : Bool)
  /-- the next action on the content -/
  | work (pid sid : Nat)
  /-- `raw.close()` -/
  | close (pid sid : Nat)

/-- The system does `l`. -/
def sysStep (w : Crowd S) (l : Label) : Option (Crowd S × List Spec.Event × List CallEvent) :=
  match Verif.step w.sys l with
  | some (s, e) => some (⟨s, w.file, e.foldl notice w.calls⟩, e, e.flatMap report)
  | none => none

/-- One action on the file `u`: the new state, the events of the system, the log. -/
def step (u : Uid) (w : Crowd S) : Move → Option (Crowd S × List Spec.Event × List CallEvent)
  | .sys l =>
    if (aimedAt l).any (fun i => (w.calls i).isSome) then none else w.sysStep l
  | .start pid sid fd k =>
    match Verif.step w.sys (.act pid (.openS sid fd u)) with
    | some (s, e) => some (⟨s, w.file, w.put (pid, sid) k (.opened (k.startPos w.file))⟩, e, [.began (pid, sid) k])
    | none => none
  | .ask pid tid sid llb =>
    match w.calls (pid, sid) with
    | some (k, .opened pos) =>
      match Verif.step w.sys (.act pid (.lockCall tid sid none 0 k.shared llb)) with
      | some (s, e) => some (⟨s, w.file, w.put (pid, sid) k (.asking pos)⟩, e, [])
      | none => none
    | _ => none
  | .work pid sid =>
    match w.calls (pid, sid) with
    | some (k, ph) =>
      match k.work S w.file ph with
      | some (ph, file) => some (⟨w.sys, file, w.put (pid, sid) k ph⟩, [], [])
      | none => none
    | none => none
  | .close pid sid =>
    match w.calls (pid, sid) with
    | some (_, .leaving r) =>
      match Verif.step w.sys (.act pid (.close sid)) with
      | some (s, e) => some (⟨s, w.file, w.drop (pid, sid)⟩, e, [.ended (pid, sid) r])
      | none => none
    | some (_, .refused) =>
      match Verif.step w.sys (.act pid (.close sid)) with
      | some (s, e) => some (⟨s, w.file, w.drop (pid, sid)⟩, e, [.refused (pid, sid)])
      | none => none
    | _ => none

/-- The actions of the system in a history. -/
def label (u : Uid) (w : Crowd S) : Move → List Label
  | .sys l => [l]
  | .start pid sid fd _ => [.act pid (.openS sid fd u)]
  | .ask pid tid sid llb => [.act pid (.lockCall tid sid none 0 (((w.calls (pid, sid)).map (fun x => x.1.shared)).getD false) llb)]
  | .work _ _ => []
  | .close pid sid => [.act pid (.close sid)]

/-- What can happen from the beginning, with the events of the system and the log.  A descriptor is wrapped in a new stream
only if no open stream of the process uses it. -/
inductive Runs (u : Uid) (file : Bytes) : Crowd S → List Spec.Event → List CallEvent → Prop
  | init : Runs u file (Crowd.init file) [] []
  | step {w w' : Crowd S} {tr e : List Spec.Event} {log x : List CallEvent} {m : Move} : Runs u file w tr log →
      (∀ l ∈ w.label u m, WellWrapped w.sys l) → w.step u m = some (w', e, x) → Runs u file w' (tr ++ e) (log ++ x)

end Crowd

end Verif
