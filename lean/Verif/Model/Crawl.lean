import Verif.Py.Val
/-!
# Crawling the documentation: scripts/crawl_atlas_doc_reference/step1_crawl_document.py

`BeautifulSoup(html, "html.parser")` is a parameter (any function from texts to trees), and so is `prettify`.
`diskcache.Cache` is a dict that survives the process, whose operations are atomic and which evicts nothing (the script stays
below its limit of 1 GB).
-/

namespace Verif.Crawl
open Verif

/-- A tree of BeautifulSoup: a string, another kind of string (comment, script, ...), an element with its name, the words of
its `class`, its `href` if it has one, and its children. -/
inductive Html where
  | text (s : Str)
  | other (s : Str)
  | elem (name : Str) (cls : List Str) (href : Option Str) (kids : List Html)

/-- `tag.name`; a string has none. -/
def Html.name : Html → Option Str
  | .elem n _ _ _ => some n
  | _ => none

/-- `tag.children` -/
def Html.kids : Html → List Html
  | .elem _ _ _ k => k
  | _ => []

mutual
/-- `soup.find_all(name)`: the descendants with this name, in document order.  `soup` itself is not one of them. -/
def findAll (name : Str) : Html → List Html
  | .elem _ _ _ kids => findAllL name kids
  | _ => []

def findAllL (name : Str) : List Html → List Html
  | [] => []
  | k :: ks => (if k.name = some name then [k] else []) ++ findAll name k ++ findAllL name ks
end

mutual
/-- `tag.text` -/
def Html.textOf : Html → Str
  | .text s => s
  | .other _ => []
  | .elem _ _ _ kids => textOfL kids

def textOfL : List Html → Str
  | [] => []
  | k :: ks => k.textOf ++ textOfL ks
end

/-- The inner loop (lines 58-61): is a child an `h1`? -/
def hasH1 : List Html → Bool
  | [] => false
  | c :: cs => if c.name = some "h1".toList then true else hasH1 cs

/-- The outer loop (lines 57-63): the first `div` that has one. -/
def firstDiv : List Html → Option Html
  | [] => none
  | d :: ds => if hasH1 d.kids then some d else firstDiv ds

/-- `extract_the_main_div` (lines 52-66); `none`: "Can not find the correct div". -/
def mainDiv (soup : Html) : Option Html := firstDiv (findAll "div".toList soup)

/-- `soup.find("div", class_="sideNavLinksScrollable")` (line 87) -/
def navDiv (soup : Html) : Option Html :=
  (findAll "div".toList soup).find? fun d => match d with
    | .elem _ cls _ _ => "sideNavLinksScrollable".toList ∈ cls
    | _ => false

/-- `a["href"]` (line 89); `none`: KeyError. -/
def Html.hrefOf : Html → Option Str
  | .elem _ _ h _ => h
  | _ => none

/-- The links of the navigation (line 88): their texts and addresses; `none`: there is no such `div` (AttributeError). -/
def links (soup : Html) : Option (List (Str × Option Str)) :=
  (navDiv soup).map fun d => (findAll "a".toList d).map fun a => (a.textOf, a.hrefOf)

/-- The first address (line 80). -/
def rootUrl : Str := "https://developer.atlassian.com/cloud/jira/platform/apis/document/structure/".toList

/-- The title of the first page (line 84). -/
def rootTitle : Str := "Atlassian Document Format".toList

/-- `f"https://developer.atlassian.com{href}"` (line 90) -/
def urlOf (href : Str) : Str := "https://developer.atlassian.com".toList ++ href

/-! ## The run -/

/-- What the script does with a page: the first page also gives the links, the others are one of them. -/
inductive Goal where
  | root
  | link (title : Str) (rest : List (Str × Option Str))

inductive Stage where
  /-- before line 77 -/
  | start
  /-- before `if url in cache` (line 45) -/
  | get (url : Str) (g : Goal)
  /-- the answer is there, before line 48 -/
  | got (url html : Str) (g : Goal)
  /-- the text was returned (line 46 or 49) -/
  | page (html : Str) (g : Goal)
  /-- before line 88: the links still to do -/
  | loop (rest : List (Str × Option Str))
  /-- in `path.write_text(text)` (line 72) -/
  | writing (title text : Str) (next : Option (List (Str × Option Str)))
  | returned
  | raised
  | killed

/-- Has the run ended? -/
def Stage.over : Stage → Bool
  | .returned | .raised | .killed => true
  | _ => false

/-- The cache (what survives), the files of `tmp` by title, the script. -/
structure Sys where
  cache : Str → Option Str
  files : Str → Option Str
  stage : Stage

inductive Event where
  | silent
  /-- the server answers -/
  | answer (url html : Str)
  /-- `get_html_by_url_with_cache(url)` returns the text -/
  | gives (url html : Str)
  | returns
  | raises
  | kill
  /-- the script is started (again) -/
  | begin

def upd (f : Str → Option Str) (k v : Str) : Str → Option Str := fun x => if x = k then some v else f x

/-- One step.  `served`: what the server may answer; a request may also fail, and so may everything else. -/
inductive Step (parse : Str → Html) (pretty : Html → Str) (served : Str → Str → Prop) : Sys → Event → Sys → Prop
  /-- the script is started with an empty `tmp` (lines 77, 20-23; how a directory is removed is in `Model/Download`) -/
  | begin {s : Sys} : s.stage.over = true →
      Step parse pretty served s .begin ⟨s.cache, fun _ => none, .start⟩
  /-- line 79 -/
  | first {c f : Str → Option Str} : Step parse pretty served ⟨c, f, .start⟩ .silent ⟨c, f, .get rootUrl .root⟩
  /-- lines 45-46 -/
  | hit {c f : Str → Option Str} {url html : Str} {g : Goal} : c url = some html →
      Step parse pretty served ⟨c, f, .get url g⟩ (.gives url html) ⟨c, f, .page html g⟩
  /-- line 47 -/
  | answer {c f : Str → Option Str} {url html : Str} {g : Goal} : c url = none → served url html →
      Step parse pretty served ⟨c, f, .get url g⟩ (.answer url html) ⟨c, f, .got url html g⟩
  /-- lines 48-49 -/
  | store {c f : Str → Option Str} {url html : Str} {g : Goal} :
      Step parse pretty served ⟨c, f, .got url html g⟩ (.gives url html) ⟨upd c url html, f, .page html g⟩
  /-- lines 82-84: the first page is written, the links come from the same page (87-88) -/
  | root {c f : Str → Option Str} {html : Str} {d : Html} : mainDiv (parse html) = some d →
      Step parse pretty served ⟨c, f, .page html .root⟩ .silent ⟨c, f, .writing rootTitle (pretty d) (links (parse html))⟩
  /-- lines 94-96 -/
  | link {c f : Str → Option Str} {html title : Str} {rest : List (Str × Option Str)} {d : Html} :
      mainDiv (parse html) = some d →
      Step parse pretty served ⟨c, f, .page html (.link title rest)⟩ .silent ⟨c, f, .writing title (pretty d) (some rest)⟩
  /-- lines 70-72; the file is there with all its text.  A title with `/` is another path (`Model/Download`): not followed
  here.  Without the navigation, line 88 raises next. -/
  | write {c f : Str → Option Str} {title text : Str} {rest : List (Str × Option Str)} : '/' ∉ title →
      Step parse pretty served ⟨c, f, .writing title text (some rest)⟩ .silent ⟨c, upd f title text, .loop rest⟩
  /-- a write that fails or is interrupted leaves a beginning of the text -/
  | part {c f : Str → Option Str} {title text b : Str} {next : Option (List (Str × Option Str))} {e : Event} {st : Stage} :
      '/' ∉ title → b <+: text → (e = .raises ∧ st = .raised) ∨ (e = .kill ∧ st = .killed) →
      Step parse pretty served ⟨c, f, .writing title text next⟩ e ⟨c, upd f title b, st⟩
  /-- lines 88-93 -/
  | next {c f : Str → Option Str} {title href : Str} {rest : List (Str × Option Str)} :
      Step parse pretty served ⟨c, f, .loop ((title, some href) :: rest)⟩ .silent
        ⟨c, f, .get (urlOf href) (.link title rest)⟩
  | returns {c f : Str → Option Str} : Step parse pretty served ⟨c, f, .loop []⟩ .returns ⟨c, f, .returned⟩
  /-- any call may fail (in particular the request, line 36, and those that have no other step) -/
  | raises {s : Sys} : s.stage.over = false → Step parse pretty served s .raises ⟨s.cache, s.files, .raised⟩
  | kill {s : Sys} : s.stage.over = false → Step parse pretty served s .kill ⟨s.cache, s.files, .killed⟩

/-- Any number of runs one after the other, up to any moment, with the cache `c` at first. -/
inductive History (parse : Str → Html) (pretty : Html → Str) (served : Str → Str → Prop) (c : Str → Option Str) :
    List Event → Sys → Prop
  | nil {f : Str → Option Str} : History parse pretty served c [] ⟨c, f, .killed⟩
  | snoc {tr : List Event} {s s' : Sys} {e : Event} : History parse pretty served c tr s →
      Step parse pretty served s e s' → History parse pretty served c (tr ++ [e]) s'

end Verif.Crawl
