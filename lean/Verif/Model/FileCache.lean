import Verif.Model.Json
/-!
# Data cached in a file: `PageSample.adf`, `AdfJsonSchema.data`

`PageSample.adf` (atlas_doc_parser/tests/data/samples.py:67-91) and `AdfJsonSchema.data`
(atlas_doc_parser/tests/data/schema.py:19-31) read a JSON file, and if it does not exist fetch the data from a server
and write the file.  Any number of processes do that at the same time (pytest workers, scripts, the code generator), each
can be killed at any moment, and the file can be deleted.

One step of the model is one system call of `Path.read_text` / `Path.write_text` (open, read of some bytes, write of some
bytes at the offset of the file descriptor, close), or the request to the server.  A file is what a path names: deleting
the path does not affect processes that have the file open; opening for writing truncates the file in place.

Simplifications: the server's answer is a value of a set `served` (it can change over time) or an exception; the
answer's text is `json.loads`-ed by the code (samples.py:75, `response.json()` in schema.py:28), so `served` consists of
results of `loads`.  `SIGKILL` and power loss are `crash` (power loss without `fsync`, which could keep later bytes and lose
earlier ones, leaves zero bytes, as the holes modelled here do).  The two `cached_property` values are attributes of the
instance, gone when the process is.
-/

namespace Verif.FileCache
open Verif Verif.Json

abbrev Bytes := List UInt8

/-- Which program: the parameters in which the two differ, and the platform. -/
structure Cfg where
  /-- `indent=4` (samples.py:89), `indent=2` (schema.py:29) -/
  indent : Nat
  /-- the fetched data is kept too: `adf_no_cache` is a `cached_property` (samples.py:67-76); schema.py has no such thing -/
  keep : Bool
  /-- `os.linesep` is `"\r\n"` -/
  crlf : Bool
  /-- `float(text)`, as in `Model/Json.lean` -/
  readFloat : Str → Str

/-! ## Text files -/

/-- Newline translation of a text file opened for writing (`newline=None`): `"\n"` becomes `os.linesep`. -/
def toNative (crlf : Bool) (s : Str) : Str :=
  s.flatMap fun c => if c = '\n' ∧ crlf = true then ['\r', '\n'] else [c]

/-- Universal newlines of a text file opened for reading: `"\r\n"` and `"\r"` become `"\n"`. -/
def universal : Str → Str
  | [] => []
  | c :: t =>
      if c = '\r' then
        match t with
        | [] => ['\n']
        | d :: u => if d = '\n' then '\n' :: universal u else '\n' :: universal (d :: u)
      else c :: universal t

/-- `str.encode("utf-8")` -/
def utf8 (s : Str) : Bytes := s.flatMap String.utf8EncodeChar

/-- `bytes.decode("utf-8")`, `none` for UnicodeDecodeError. -/
def ofUtf8 (b : Bytes) : Option Str := (ByteArray.mk b.toArray).utf8Decode?.map Array.toList

/-- The bytes `write_text(json.dumps(data, indent=…, ensure_ascii=False), encoding="utf-8")` writes
(samples.py:89-90, schema.py:29-30); `none`: `dumps` raises. -/
def content (cfg : Cfg) (v : Val) : Option Bytes :=
  (dumps (some cfg.indent) v).map fun s => utf8 (toNative cfg.crlf s)

/-- `json.loads(….read_text(encoding="utf-8"))` on the bytes of the file (samples.py:86, schema.py:24); `none`:
UnicodeDecodeError or JSONDecodeError (both are ValueErrors). -/
def decode (cfg : Cfg) (b : Bytes) : Option Val :=
  (ofUtf8 b).bind fun s => loads cfg.readFloat (universal s)

/-- `write(2)` of `d` at offset `pos` of a file with bytes `b`; a gap is filled with zeros. -/
def writeAt (b : Bytes) (pos : Nat) (d : Bytes) : Bytes :=
  b.take pos ++ List.replicate (pos - b.length) 0 ++ d ++ b.drop (pos + d.length)

/-! ## Processes -/

/-- Where a process stands in the property. -/
inductive Stage where
  /-- not in the property -/
  | idle
  /-- the file is open for reading, `buf` has been read (line 86) -/
  | reading (file : Nat) (buf : Bytes)
  /-- FileNotFoundError was caught (line 87) -/
  | missing
  /-- the data is there (line 88 done), to be written -/
  | fetched (v : Val)
  /-- the file is open for writing at offset `pos`, `rest` is still to be written (line 90) -/
  | writing (file : Nat) (pos : Nat) (rest : Bytes) (v : Val)

/-- A process with one instance of the class. -/
structure Proc where
  stage : Stage
  /-- the value of the `cached_property` (`adf`, `data`), once it has one -/
  value : Option Val
  /-- the value of `adf_no_cache`, once it has one -/
  kept : Option Val

/-- A process that has just started. -/
def Proc.fresh : Proc := ⟨.idle, Option.none, Option.none⟩

inductive Err where
  /-- UnicodeDecodeError, JSONDecodeError -/
  | decode
  /-- whatever the request raises -/
  | fetch
  /-- OSError when opening, writing or closing the file -/
  | write
  /-- TypeError from `json.dumps` -/
  | dump
  deriving DecidableEq

structure Sys where
  /-- the file the path names -/
  path : Option Nat
  /-- contents of all files there have been -/
  files : Nat → Bytes
  /-- number of files there have been -/
  next : Nat
  procs : Nat → Proc

inductive Event where
  /-- a step that is visible to nobody -/
  | silent (p : Nat)
  /-- the server is asked and answers `v` -/
  | fetch (p : Nat) (v : Val)
  /-- the property returns `v` -/
  | ret (p : Nat) (v : Val)
  /-- the property raises -/
  | raise (p : Nat) (e : Err)
  /-- the process is killed; the number is used again for a new one -/
  | crash (p : Nat)
  /-- the file is deleted -/
  | delete

def Sys.setProc (s : Sys) (p : Nat) (q : Proc) : Sys := { s with procs := fun i => if i = p then q else s.procs i }
def Sys.setFile (s : Sys) (f : Nat) (b : Bytes) : Sys := { s with files := fun i => if i = f then b else s.files i }
/-- A file is created under the path. -/
def Sys.create (s : Sys) : Sys :=
  { s with path := some s.next, files := fun i => if i = s.next then [] else s.files i, next := s.next + 1 }

/-- The file the path names after opening it for writing, and the state then (`open(path, "w")`: create or truncate). -/
def Sys.openWrite (s : Sys) : Nat × Sys :=
  match s.path with
  | some f => (f, s.setFile f [])
  | Option.none => (s.next, s.create)

/-- One step (samples.py:85-91, schema.py:23-31). -/
inductive Step (cfg : Cfg) (served : Val → Prop) : Sys → Event → Sys → Prop
  /-- `cached_property`: the value is there -/
  | hit {s : Sys} (p : Nat) {v : Val} {k : Option Val} : s.procs p = ⟨.idle, some v, k⟩ → Step cfg served s (.ret p v) s
  /-- `open(path)` succeeds -/
  | openRead {s : Sys} (p f : Nat) {k : Option Val} : s.procs p = ⟨.idle, .none, k⟩ → s.path = some f →
      Step cfg served s (.silent p) (s.setProc p ⟨.reading f [], .none, k⟩)
  /-- `open(path)` raises FileNotFoundError -/
  | openMissing {s : Sys} (p : Nat) {k : Option Val} : s.procs p = ⟨.idle, .none, k⟩ → s.path = .none →
      Step cfg served s (.silent p) (s.setProc p ⟨.missing, .none, k⟩)
  /-- `read`: up to `n` more bytes -/
  | read {s : Sys} (p f n : Nat) {buf : Bytes} {k : Option Val} : s.procs p = ⟨.reading f buf, .none, k⟩ →
      Step cfg served s (.silent p) (s.setProc p ⟨.reading f (buf ++ ((s.files f).drop buf.length).take n), .none, k⟩)
  /-- `read` has returned nothing: end of file; what was read is decoded -/
  | eof {s : Sys} (p f : Nat) {buf : Bytes} {v : Val} {k : Option Val} : s.procs p = ⟨.reading f buf, .none, k⟩ →
      (s.files f).length ≤ buf.length → decode cfg buf = some v →
      Step cfg served s (.ret p v) (s.setProc p ⟨.idle, some v, k⟩)
  /-- … without success -/
  | eofBad {s : Sys} (p f : Nat) {buf : Bytes} {k : Option Val} : s.procs p = ⟨.reading f buf, .none, k⟩ →
      (s.files f).length ≤ buf.length → decode cfg buf = .none →
      Step cfg served s (.raise p .decode) (s.setProc p ⟨.idle, .none, k⟩)
  /-- `self.adf_no_cache` is there already -/
  | refetch {s : Sys} (p : Nat) {v : Val} : cfg.keep = true → s.procs p = ⟨.missing, .none, some v⟩ →
      Step cfg served s (.silent p) (s.setProc p ⟨.fetched v, .none, some v⟩)
  /-- the server answers -/
  | fetch {s : Sys} (p : Nat) {v : Val} {k : Option Val} : s.procs p = ⟨.missing, .none, k⟩ → (cfg.keep = true → k = .none) →
      served v → Step cfg served s (.fetch p v) (s.setProc p ⟨.fetched v, .none, if cfg.keep then some v else .none⟩)
  | fetchFail {s : Sys} (p : Nat) {k : Option Val} : s.procs p = ⟨.missing, .none, k⟩ → (cfg.keep = true → k = .none) →
      Step cfg served s (.raise p .fetch) (s.setProc p ⟨.idle, .none, k⟩)
  /-- `open(path, "w")` -/
  | openWrite {s : Sys} (p : Nat) {v : Val} {b : Bytes} {k : Option Val} : s.procs p = ⟨.fetched v, .none, k⟩ →
      content cfg v = some b →
      Step cfg served s (.silent p) (s.openWrite.2.setProc p ⟨.writing s.openWrite.1 0 b v, .none, k⟩)
  /-- `json.dumps` raises -/
  | dumpFail {s : Sys} (p : Nat) {v : Val} {k : Option Val} : s.procs p = ⟨.fetched v, .none, k⟩ → content cfg v = .none →
      Step cfg served s (.raise p .dump) (s.setProc p ⟨.idle, .none, k⟩)
  | openFail {s : Sys} (p : Nat) {v : Val} {k : Option Val} : s.procs p = ⟨.fetched v, .none, k⟩ →
      Step cfg served s (.raise p .write) (s.setProc p ⟨.idle, .none, k⟩)
  /-- `write`: the next `n` bytes -/
  | write {s : Sys} (p f pos n : Nat) {rest : Bytes} {v : Val} {k : Option Val} :
      s.procs p = ⟨.writing f pos rest v, .none, k⟩ → n ≤ rest.length →
      Step cfg served s (.silent p)
        ((s.setFile f (writeAt (s.files f) pos (rest.take n))).setProc p ⟨.writing f (pos + n) (rest.drop n) v, .none, k⟩)
  | writeFail {s : Sys} (p f pos : Nat) {rest : Bytes} {v : Val} {k : Option Val} :
      s.procs p = ⟨.writing f pos rest v, .none, k⟩ →
      Step cfg served s (.raise p .write) (s.setProc p ⟨.idle, .none, k⟩)
  /-- everything is written; `return data` -/
  | close {s : Sys} (p f pos : Nat) {v : Val} {k : Option Val} : s.procs p = ⟨.writing f pos [] v, .none, k⟩ →
      Step cfg served s (.ret p v) (s.setProc p ⟨.idle, some v, k⟩)
  /-- the process is killed -/
  | crash {s : Sys} (p : Nat) : Step cfg served s (.crash p) (s.setProc p Proc.fresh)
  /-- somebody deletes the file -/
  | delete {s : Sys} : Step cfg served s .delete { s with path := .none }

/-- A history: the events of an execution, in order. -/
inductive Exec (cfg : Cfg) (served : Val → Prop) (s₀ : Sys) : List Event → Sys → Prop
  | nil : Exec cfg served s₀ [] s₀
  | snoc {tr : List Event} {s s' : Sys} {e : Event} : Exec cfg served s₀ tr s → Step cfg served s e s' →
      Exec cfg served s₀ (tr ++ [e]) s'

/-- At the beginning: no process has started the property, and there is no file. -/
def Sys.empty : Sys := ⟨Option.none, fun _ => [], 0, fun _ => Proc.fresh⟩

/-- At the beginning: no process has started the property, and the file has the bytes `b`. -/
def Sys.withFile (b : Bytes) : Sys := ⟨some 0, fun _ => b, 1, fun _ => Proc.fresh⟩

end Verif.FileCache
