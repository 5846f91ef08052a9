import Verif.Model.GenCode
import Verif.Model.FileCache
/-!
# Writing api.py: `gen_code.main`

gen_code.py:185-199.  Any number of processes run `main` (which every script of `scripts/s02-gen-code` does), each can be
killed or fail at any moment.  Generating does not read api.py (no module of the package imports it), so what is generated
is a function of the `World`, which does not change here.  Steps are system calls, as in `Model/FileCache.lean`;
`open(path, "w")` uses the locale's encoding (`encode`, `none`: UnicodeEncodeError, raised by `f.write` after the file was
opened).
-/

namespace Verif.GenMain
open Verif Verif.Gen Verif.FileCache

/-- Where a process stands in `main`. -/
inductive Stage where
  | idle
  /-- `content` is there (line 191) -/
  | generated (content : Str)
  /-- api.py is open (line 195), nothing is encoded yet -/
  | opened (content : Str)
  /-- `rest` is still to be written at offset `pos` (line 196 and the flush when the file is closed) -/
  | writing (pos : Nat) (rest : Bytes)
  deriving DecidableEq

structure Sys where
  /-- the bytes of api.py -/
  file : Option Bytes
  procs : Nat → Stage

inductive Event where
  | silent (p : Nat)
  /-- api.py is opened (created or truncated) -/
  | opens (p : Nat)
  /-- `main` returns -/
  | returns (p : Nat)
  /-- `main` raises -/
  | raises (p : Nat)
  /-- the process is killed -/
  | crash (p : Nat)
  deriving DecidableEq

def Sys.set (s : Sys) (p : Nat) (q : Stage) : Sys := { s with procs := fun i => if i = p then q else s.procs i }

/-- One step of `main`. -/
inductive Step (w : World) (encode : Str → Option Bytes) : Sys → Event → Sys → Prop
  /-- line 191 -/
  | generate {s : Sys} (p : Nat) {c : Str} : s.procs p = .idle → generate w = .ok c →
      Step w encode s (.silent p) (s.set p (.generated c))
  | generateFail {s : Sys} (p : Nat) {e : PyErr} : s.procs p = .idle → Gen.generate w = .error e →
      Step w encode s (.raises p) s
  /-- line 195 -/
  | opens {s : Sys} (p : Nat) {c : Str} : s.procs p = .generated c →
      Step w encode s (.opens p) ({ s with file := some [] }.set p (.opened c))
  | openFail {s : Sys} (p : Nat) {c : Str} : s.procs p = .generated c → Step w encode s (.raises p) (s.set p .idle)
  /-- line 196: `f.write(content)` -/
  | encode {s : Sys} (p : Nat) {c : Str} {b : Bytes} : s.procs p = .opened c → encode c = some b →
      Step w encode s (.silent p) (s.set p (.writing 0 b))
  | encodeFail {s : Sys} (p : Nat) {c : Str} : s.procs p = .opened c → encode c = .none →
      Step w encode s (.raises p) (s.set p .idle)
  /-- the next `n` bytes reach the file -/
  | write {s : Sys} (p pos n : Nat) {rest : Bytes} : s.procs p = .writing pos rest → n ≤ rest.length →
      Step w encode s (.silent p)
        ({ s with file := some (writeAt (s.file.getD []) pos (rest.take n)) }.set p (.writing (pos + n) (rest.drop n)))
  | writeFail {s : Sys} (p pos : Nat) {rest : Bytes} : s.procs p = .writing pos rest →
      Step w encode s (.raises p) (s.set p .idle)
  /-- everything is written: the file is closed, `main` returns -/
  | returns {s : Sys} (p pos : Nat) : s.procs p = .writing pos [] → Step w encode s (.returns p) (s.set p .idle)
  | crash {s : Sys} (p : Nat) : Step w encode s (.crash p) (s.set p .idle)

/-- A history. -/
inductive Exec (w : World) (encode : Str → Option Bytes) (s₀ : Sys) : List Event → Sys → Prop
  | nil : Exec w encode s₀ [] s₀
  | snoc {tr : List Event} {s s' : Sys} {e : Event} : Exec w encode s₀ tr s → Step w encode s e s' →
      Exec w encode s₀ (tr ++ [e]) s'

/-- At the beginning nobody runs `main`; api.py is whatever it is. -/
def Sys.start (file : Option Bytes) : Sys := ⟨file, fun _ => .idle⟩

end Verif.GenMain
