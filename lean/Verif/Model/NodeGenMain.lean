import Verif.Model.NodeGen
/-!
# Running the node generator

`main` of scripts/s02-nodes-code-gen/s1_gen_code.py (lines 496-593) as a program over files.  Any number of processes run it, each
with the schema it has loaded; each can be killed or fail at any moment; developers create, edit and delete files at any moment.
Steps are system calls, as in `Model/GenMain.lean`; `encode` is the locale's encoding (`none`: UnicodeEncodeError, raised
by `f.write` after the file was opened).  Simplification: files are named by their path; a file that is deleted or replaced while
a process has it open is treated as if the descriptor followed the path.
-/

namespace Verif.NodeGenMain
open Verif Verif.NodeGen
open Verif.FileCache (Bytes writeAt)

/-- atlas_doc_parser/nodes and atlas_doc_parser/mixins (lines 35-36). -/
inductive Dir where
  | nodes | mixins
  deriving DecidableEq

abbrev Files := Dir × Str → Option Bytes

/-- Where a process stands in `main`; `todo` and `err` are the rest of the plan. -/
inductive Stage where
  | idle
  | running (todo : List Act) (err : Option PyErr)
  /-- `path_mixin.exists()` was false (lines 567, 579), the text of the stub is there -/
  | absent (file content : Str) (todo : List Act) (err : Option PyErr)
  /-- the file is open, nothing is encoded yet -/
  | opened (path : Dir × Str) (content : Str) (todo : List Act) (err : Option PyErr)
  /-- `rest` is still to be written at offset `pos` -/
  | writing (path : Dir × Str) (pos : Nat) (rest : Bytes) (todo : List Act) (err : Option PyErr)

structure Sys where
  files : Files
  procs : Nat → Stage

inductive Event where
  | silent (p : Nat)
  | start (p : Nat) (defs : Defs)
  | returns (p : Nat)
  | raises (p : Nat)
  | crash (p : Nat)
  /-- somebody else creates, changes or deletes a file -/
  | edit (path : Dir × Str) (content : Option Bytes)

def Sys.set (s : Sys) (p : Nat) (q : Stage) : Sys := { s with procs := fun i => if i = p then q else s.procs i }
def Sys.put (s : Sys) (path : Dir × Str) (b : Option Bytes) : Sys := { s with files := fun x => if x = path then b else s.files x }

/-- One step; `dirs` says which of the two directories exist (`open` for writing fails in a directory that does not). -/
inductive Step (env : Env) (encode : Str → Option Bytes) (dirs : Dir → Bool) : Sys → Event → Sys → Prop
  | start {s : Sys} (p : Nat) (defs : Defs) : s.procs p = .idle →
      Step env encode dirs s (.start p defs) (s.set p (.running (plan env defs).1 (plan env defs).2))
  /-- lines 520, 541, 557: `open(path, "w")` -/
  | openNode {s : Sys} (p : Nat) {f c : Str} {todo : List Act} {err : Option PyErr} :
      s.procs p = .running (.write f c :: todo) err → dirs .nodes = true →
      Step env encode dirs s (.silent p) ((s.put (.nodes, f) (some [])).set p (.opened (.nodes, f) c todo err))
  | openNodeFail {s : Sys} (p : Nat) {f c : Str} {todo : List Act} {err : Option PyErr} :
      s.procs p = .running (.write f c :: todo) err → Step env encode dirs s (.raises p) (s.set p .idle)
  /-- lines 567-568, 579-580 -/
  | skip {s : Sys} (p : Nat) {f : Str} {c : Except PyErr Str} {todo : List Act} {err : Option PyErr} :
      s.procs p = .running (.stub f c :: todo) err → (s.files (.mixins, f)).isSome →
      Step env encode dirs s (.silent p) (s.set p (.running todo err))
  /-- lines 567-571, 579-583 -/
  | absent {s : Sys} (p : Nat) {f c : Str} {todo : List Act} {err : Option PyErr} :
      s.procs p = .running (.stub f (.ok c) :: todo) err → s.files (.mixins, f) = none →
      Step env encode dirs s (.silent p) (s.set p (.absent f c todo err))
  | absentFail {s : Sys} (p : Nat) {f : Str} {e : PyErr} {todo : List Act} {err : Option PyErr} :
      s.procs p = .running (.stub f (.error e) :: todo) err → s.files (.mixins, f) = none →
      Step env encode dirs s (.raises p) (s.set p .idle)
  /-- lines 572, 584: `open(path_mixin, "w")` -/
  | openMixin {s : Sys} (p : Nat) {f c : Str} {todo : List Act} {err : Option PyErr} :
      s.procs p = .absent f c todo err → dirs .mixins = true →
      Step env encode dirs s (.silent p) ((s.put (.mixins, f) (some [])).set p (.opened (.mixins, f) c todo err))
  | openMixinFail {s : Sys} (p : Nat) {f c : Str} {todo : List Act} {err : Option PyErr} :
      s.procs p = .absent f c todo err → Step env encode dirs s (.raises p) (s.set p .idle)
  /-- lines 521, 542, 558, 573, 585: `f.write(content)` -/
  | encode {s : Sys} (p : Nat) {path : Dir × Str} {c : Str} {b : Bytes} {todo : List Act} {err : Option PyErr} :
      s.procs p = .opened path c todo err → encode c = some b →
      Step env encode dirs s (.silent p) (s.set p (.writing path 0 b todo err))
  | encodeFail {s : Sys} (p : Nat) {path : Dir × Str} {c : Str} {todo : List Act} {err : Option PyErr} :
      s.procs p = .opened path c todo err → encode c = none → Step env encode dirs s (.raises p) (s.set p .idle)
  /-- the next `n` bytes reach the file -/
  | write {s : Sys} (p n : Nat) {path : Dir × Str} {pos : Nat} {rest : Bytes} {todo : List Act} {err : Option PyErr} :
      s.procs p = .writing path pos rest todo err → n ≤ rest.length →
      Step env encode dirs s (.silent p)
        ((s.put path (some (writeAt ((s.files path).getD []) pos (rest.take n)))).set p (.writing path (pos + n) (rest.drop n) todo err))
  | writeFail {s : Sys} (p : Nat) {path : Dir × Str} {pos : Nat} {rest : Bytes} {todo : List Act} {err : Option PyErr} :
      s.procs p = .writing path pos rest todo err → Step env encode dirs s (.raises p) (s.set p .idle)
  /-- everything is written, the file is closed -/
  | close {s : Sys} (p : Nat) {path : Dir × Str} {pos : Nat} {todo : List Act} {err : Option PyErr} :
      s.procs p = .writing path pos [] todo err → Step env encode dirs s (.silent p) (s.set p (.running todo err))
  /-- `main` is done -/
  | returns {s : Sys} (p : Nat) : s.procs p = .running [] none → Step env encode dirs s (.returns p) (s.set p .idle)
  /-- the generation of the next module raises -/
  | raises {s : Sys} (p : Nat) {e : PyErr} : s.procs p = .running [] (some e) → Step env encode dirs s (.raises p) (s.set p .idle)
  | crash {s : Sys} (p : Nat) : Step env encode dirs s (.crash p) (s.set p .idle)
  | edit {s : Sys} (path : Dir × Str) (b : Option Bytes) : Step env encode dirs s (.edit path b) (s.put path b)

/-- A history. -/
inductive Exec (env : Env) (encode : Str → Option Bytes) (dirs : Dir → Bool) (s₀ : Sys) : List Event → Sys → Prop
  | nil : Exec env encode dirs s₀ [] s₀
  | snoc {tr : List Event} {s s' : Sys} {e : Event} : Exec env encode dirs s₀ tr s → Step env encode dirs s e s' →
      Exec env encode dirs s₀ (tr ++ [e]) s'

/-- At the beginning nobody runs `main`. -/
def Sys.start (files : Files) : Sys := ⟨files, fun _ => .idle⟩

end Verif.NodeGenMain
