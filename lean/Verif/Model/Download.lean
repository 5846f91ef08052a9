import Verif.Model.FileCache
/-!
# Downloading pages: scripts/s02-download-unit-test-data/step1_download.py

`main(page_id_list)` (lines 47-58) removes the directory `tmp` next to the script, makes it again, and for every page asks
the server for title and body (`get_page_by_id`, lines 26-44) and writes `tmp/{title}.json`.

One step is one system call or one request.  Every call may fail (an exception ends `main`), and the process may be killed
at any moment; both leave the files as they are.  No other process touches the directory meanwhile.  Not modelled: symbolic
links, the request itself (its answer is any title and body of a given set), the pause of one second.
-/

namespace Verif.Download
open Verif Verif.FileCache

/-- The names on the way from the root. -/
abbrev Path := List Str

inductive Entry where
  | dir
  | file (b : Bytes)
  deriving DecidableEq

abbrev Fs := Path → Option Entry

def Fs.set (fs : Fs) (p : Path) (e : Option Entry) : Fs := fun q => if q = p then e else fs q

/-- The parts of a path, as pathlib parses it: empty ones and `.` are dropped (not `..`). -/
def parts (s : Str) : List Str := (s.splitOn '/').filter fun c => !c.isEmpty && c != ['.']

/-- `f"{title}.json"` (line 56). -/
def fileName (title : Str) : Str := title ++ ".json".toList

/-- `dir_tmp.joinpath(f"{title}.json")` (line 56): where the path starts, and its parts; an absolute path replaces
`dir_tmp`. -/
def target (tmp : Path) (title : Str) : Path × List Str :=
  (if (fileName title).head? = some '/' then [] else tmp, parts (fileName title))

/-- The kernel follows a path from a directory: everything but the last part must be a directory, `..` is the parent. -/
def walk (fs : Fs) : Path → List Str → Option Path
  | p, [] => some p
  | p, c :: cs =>
    if fs p = some .dir then walk fs (if c = "..".toList then p.dropLast else p ++ [c]) cs else none

/-- Where the script stands; `ids` are the pages still to be asked for. -/
inductive Stage where
  /-- before line 51 -/
  | start (ids : List Int)
  /-- in `shutil.rmtree` (line 52) -/
  | removing (ids : List Int)
  /-- before line 53 -/
  | cleared (ids : List Int)
  /-- before line 55 -/
  | next (ids : List Int)
  /-- the answer is there (line 55) -/
  | got (title : Str) (body : Val) (ids : List Int)
  /-- the file is open (line 57), nothing is encoded yet -/
  | opened (path : Path) (text : Str) (ids : List Int)
  /-- `rest` is still to be written -/
  | writing (path : Path) (rest : Bytes) (ids : List Int)
  | returned
  | raised
  | killed

structure Sys where
  fs : Fs
  stage : Stage

inductive Event where
  | silent
  /-- the server answers title and body of a page -/
  | answer (id : Int) (title : Str) (body : Val)
  | returns
  | raises
  | kill

/-- One step.  `served`: what the server may answer; `encode`: the locale's encoding and newlines (`write_text` is called
without encoding), `none`: UnicodeEncodeError. -/
inductive Step (served : Int → Str → Val → Prop) (encode : Str → Option Bytes) (tmp : Path) : Sys → Event → Sys → Prop
  /-- line 51 -/
  | there {fs : Fs} {ids : List Int} : fs tmp ≠ none →
      Step served encode tmp ⟨fs, .start ids⟩ .silent ⟨fs, .removing ids⟩
  | notThere {fs : Fs} {ids : List Int} : fs tmp = none →
      Step served encode tmp ⟨fs, .start ids⟩ .silent ⟨fs, .cleared ids⟩
  /-- `rmtree` removes a file or an empty directory -/
  | remove {fs : Fs} {ids : List Int} {p : Path} : fs p ≠ none → tmp <+: p → p ≠ tmp →
      (∀ q, p <+: q → q ≠ p → fs q = none) →
      Step served encode tmp ⟨fs, .removing ids⟩ .silent ⟨fs.set p none, .removing ids⟩
  /-- at last the directory itself -/
  | rmdir {fs : Fs} {ids : List Int} : fs tmp = some .dir → (∀ q, tmp <+: q → q ≠ tmp → fs q = none) →
      Step served encode tmp ⟨fs, .removing ids⟩ .silent ⟨fs.set tmp none, .cleared ids⟩
  /-- line 53 -/
  | mkdir {fs : Fs} {ids : List Int} : fs tmp = none →
      Step served encode tmp ⟨fs, .cleared ids⟩ .silent ⟨fs.set tmp (some .dir), .next ids⟩
  /-- line 55 -/
  | answer {fs : Fs} {id : Int} {ids : List Int} {title : Str} {body : Val} : served id title body →
      Step served encode tmp ⟨fs, .next (id :: ids)⟩ (.answer id title body) ⟨fs, .got title body ids⟩
  /-- line 57: the text is made, the file is created or truncated -/
  | opens {fs : Fs} {ids : List Int} {title text : Str} {body : Val} {p : Path} :
      Json.dumps (some 2) body = some text → walk fs (target tmp title).1 (target tmp title).2 = some p →
      fs p ≠ some .dir →
      Step served encode tmp ⟨fs, .got title body ids⟩ .silent ⟨fs.set p (some (.file [])), .opened p text ids⟩
  | encode {fs : Fs} {ids : List Int} {p : Path} {text : Str} {b : Bytes} : encode text = some b →
      Step served encode tmp ⟨fs, .opened p text ids⟩ .silent ⟨fs, .writing p b ids⟩
  /-- the next `n` bytes are written -/
  | write {fs : Fs} {ids : List Int} {p : Path} {b rest : Bytes} (n : Nat) : fs p = some (.file b) → n ≤ rest.length →
      Step served encode tmp ⟨fs, .writing p rest ids⟩ .silent
        ⟨fs.set p (some (.file (b ++ rest.take n))), .writing p (rest.drop n) ids⟩
  /-- the file is closed, on to the next page (line 54) -/
  | close {fs : Fs} {ids : List Int} {p : Path} :
      Step served encode tmp ⟨fs, .writing p [] ids⟩ .silent ⟨fs, .next ids⟩
  | returns {fs : Fs} : Step served encode tmp ⟨fs, .next []⟩ .returns ⟨fs, .returned⟩
  /-- a call or a request fails -/
  | raises {s : Sys} : s.stage ≠ .returned → s.stage ≠ .raised → s.stage ≠ .killed →
      Step served encode tmp s .raises ⟨s.fs, .raised⟩
  | kill {s : Sys} : s.stage ≠ .returned → s.stage ≠ .raised → s.stage ≠ .killed →
      Step served encode tmp s .kill ⟨s.fs, .killed⟩

/-- A run of `main(ids)`, up to any moment. -/
inductive Exec (served : Int → Str → Val → Prop) (encode : Str → Option Bytes) (tmp : Path) (ids : List Int) (fs : Fs) :
    List Event → Sys → Prop
  | nil : Exec served encode tmp ids fs [] ⟨fs, .start ids⟩
  | snoc {tr : List Event} {s s' : Sys} {e : Event} : Exec served encode tmp ids fs tr s →
      Step served encode tmp s e s' → Exec served encode tmp ids fs (tr ++ [e]) s'

end Verif.Download
