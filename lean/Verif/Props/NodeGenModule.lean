import Verif.Props.NodeGen
import Verif.Lemmas.NodeGenAttrs
/-!
# C76: the generated modules

scripts/s02-nodes-code-gen/s1_gen_code.py, for every schema.
-/

namespace Verif.Props
open Verif Verif.NodeGen Verif.Spec.NodeGen

theorem lit_h1 : "# -*- coding: utf-8 -*-\n\n\"\"\"\nAuto-generated ADF ".toList = "# -*- coding: utf-8 -*-".toList ++ (['\n'] ++ (['\n'] ++ ("\"\"\"".toList ++ (['\n'] ++ ("Auto-generated ADF ".toList))))) := by decide +kernel
theorem lit_h2 : "\n\"\"\"\n\nimport typing as T\nimport dataclasses\n\nfrom func_args.api import OPT\n\nfrom ..type_enum import TypeEnum\nfrom ..mixins.".toList = ['\n'] ++ ("\"\"\"".toList ++ (['\n'] ++ (['\n'] ++ ("import typing as T".toList ++ (['\n'] ++ ("import dataclasses".toList ++ (['\n'] ++ (['\n'] ++ ("from func_args.api import OPT".toList ++ (['\n'] ++ (['\n'] ++ ("from ..type_enum import TypeEnum".toList ++ (['\n'] ++ ("from ..mixins.".toList)))))))))))))) := by decide +kernel
theorem lit_h3 : "Mixin\nfrom .base import ".toList = "Mixin".toList ++ (['\n'] ++ ("from .base import ".toList)) := by decide +kernel
theorem lit_h3b : "\n\n\n".toList = ['\n'] ++ (['\n'] ++ (['\n'])) := by decide +kernel
theorem lit_h4 : "@dataclasses.dataclass(frozen=True)\nclass ".toList = "@dataclasses.dataclass(frozen=True)".toList ++ (['\n'] ++ ("class ".toList)) := by decide +kernel
theorem lit_h5 : "):\n    \"\"\"\n    ADF ".toList = "):".toList ++ (['\n'] ++ ("    \"\"\"".toList ++ (['\n'] ++ ("    ADF ".toList)))) := by decide +kernel
theorem lit_h6 : "\n    \"\"\"\n\n    type: str = dataclasses.field(default=TypeEnum.".toList = ['\n'] ++ ("    \"\"\"".toList ++ (['\n'] ++ (['\n'] ++ ("    type: str = dataclasses.field(default=TypeEnum.".toList)))) := by decide +kernel
theorem lit_h7 : ".value)\n".toList = ".value)".toList ++ (['\n']) := by decide +kernel
theorem lit_h8 : "Attrs(Base):\n    \"\"\"Attributes for ".toList = "Attrs(Base):".toList ++ (['\n'] ++ ("    \"\"\"Attributes for ".toList)) := by decide +kernel
theorem lit_h9 : ".\"\"\"\n".toList = ".\"\"\"".toList ++ (['\n']) := by decide +kernel
theorem lit_h10 : "\n\n".toList = ['\n'] ++ (['\n']) := by decide +kernel


/-- Only for nodes. -/
def nodeOnly : Kind → Str → Str
  | .mark, _ => []
  | .node, s => s

theorem nodeOnly_append (k : Kind) (a b : Str) : nodeOnly k (a ++ b) = nodeOnly k a ++ nodeOnly k b := by
  cases k <;> rfl

set_option simprocs false in
theorem moduleText_lines (env : Env) (k : Kind) (n : Names) (i : Info) : textOf env k n i =
    unlines (headLines k n.typeName n.moduleName n.className) ++ attrsClass n.className i.attrs ++
    unlines (classLines k n.typeName n.className (n.typeEnum.pyStr env)) ++
    (if i.attrs.isSome then "    attrs: ".toList ++ n.className ++ "Attrs = OPT\n".toList else []) ++
    nodeOnly k (nodeFields i) := by
  have b1 : "from .base import Base, BaseMark".toList = "from .base import ".toList ++ "Base, BaseMark".toList := by decide +kernel
  have b2 : "from .base import Base, BaseMark, BaseNode".toList = "from .base import ".toList ++ "Base, BaseMark, BaseNode".toList := by
    decide +kernel
  cases k
  · delta textOf markText moduleText headLines classLines
    simp only [unlines, classPrefix, nodeOnly, lit_h1, lit_h2, lit_h3, lit_h3b, lit_h4,
      lit_h5, lit_h6, lit_h7, b1, List.flatMap_cons, List.flatMap_nil, List.append_assoc, List.append_nil, List.nil_append]
  · delta textOf nodeText moduleText headLines classLines
    simp only [unlines, classPrefix, nodeOnly, lit_h1, lit_h2, lit_h3, lit_h3b, lit_h4,
      lit_h5, lit_h6, lit_h7, b2, List.flatMap_cons, List.flatMap_nil, List.append_assoc, List.append_nil, List.nil_append]

theorem attrsClass_none (cls : Str) : attrsClass cls none = [] := rfl

set_option simprocs false in
theorem attrsClass_lines (cls : Str) (req opt : List (Str × Str)) :
    attrsClass cls (some (req.map (fun x => ⟨x.1, x.2, true⟩) ++ opt.map (fun x => ⟨x.1, x.2, false⟩))) =
      unlines (attrsLines cls req opt) := by
  have n1 : "\n".toList = ['\n'] := by decide
  have n2 : " = OPT\n".toList = " = OPT".toList ++ ['\n'] := by decide
  have h1 : (req.map fun x => (⟨x.1, x.2, true⟩ : NodeGen.Field)).flatMap fieldLine =
      (req.map fun f => "    ".toList ++ f.1 ++ ": ".toList ++ f.2).flatMap (· ++ ['\n']) := by
    rw [List.flatMap_map, List.flatMap_map]
    refine List.flatMap_congr fun x _ => ?_
    simp only [fieldLine, if_true, n1]
  have h2 : (opt.map fun x => (⟨x.1, x.2, false⟩ : NodeGen.Field)).flatMap fieldLine =
      (opt.map fun f => "    ".toList ++ f.1 ++ ": ".toList ++ f.2 ++ " = OPT".toList).flatMap (· ++ ['\n']) := by
    rw [List.flatMap_map, List.flatMap_map]
    refine List.flatMap_congr fun x _ => ?_
    simp only [fieldLine, Bool.false_eq_true, if_false, n2, List.append_assoc]
  delta attrsClass attrsLines
  simp only [unlines, List.flatMap_append, h1, h2, lit_h4, lit_h8, lit_h9, lit_h10, List.flatMap_cons,
    List.flatMap_nil, List.append_assoc, List.append_nil, List.nil_append]

theorem own_unique {key : String} {e v : Val} (he : Spec.UniqueKeys e) (h : own key e = some v) : Spec.UniqueKeys v := by
  cases e with
  | dict x =>
    rw [own] at h
    cases hx : lookupKey x "properties" with
    | none => rw [hx] at h; cases h
    | some w =>
      rw [hx] at h
      have := uniqueGet he hx
      cases w with
      | dict q => exact uniqueGet this h
      | _ => cases h
  | _ => cases h

/-- What a successful generation has seen: the merged properties. -/
theorem generates_parts {env : Env} {k : Kind} {defs : Defs} {t : Str} {n : Names} {text : Str} {d : List (String × Val)}
    (hg : Generates env k defs (t ++ suffix k) n text) (hd : lookupKey defs (String.ofList (t ++ suffix k)) = some (.dict d)) :
    ∃ P i, mergedProps d = .ok (.dict P) ∧ enumOf (.dict P) (t ++ suffix k) = .ok n.typeEnum ∧ infoOf (.dict P) = .ok i ∧
      text = textOf env k n i ∧ n.typeName = t := by
  have hg' := generates_iff.1 hg
  rw [alone] at hg'
  cases hn : namesFor defs (t ++ suffix k) with
  | error e => rw [hn] at hg'; cases hg'
  | ok n' =>
    rw [hn] at hg'
    cases hi : infoFor defs (t ++ suffix k) with
    | error e => rw [hi] at hg'; cases hg'
    | ok i =>
      rw [hi] at hg'
      simp only [Except.ok.injEq, Prod.mk.injEq] at hg'
      obtain ⟨rfl, rfl⟩ := hg'
      rw [namesFor] at hn
      cases hx : namesOf defs (t ++ suffix k) with
      | error e => rw [hx] at hn; cases hn
      | ok x =>
        obtain ⟨m, d'⟩ := x
        rw [hx] at hn
        cases hn
        obtain ⟨-, ht, -, -, he⟩ := names_shape hx
        have he' : enumFor defs (t ++ suffix k) = .ok m.typeEnum := by rw [enumFor, he]; rfl
        have hdef : definition defs (t ++ suffix k) = .ok d := by rw [definition, hd]; rfl
        rw [enumFor_eq, hdef] at he'
        rw [infoFor_eq, hdef] at hi
        simp only at he' hi
        cases hm : mergedProps d with
        | error e => rw [hm] at he'; cases he'
        | ok props =>
          rw [hm] at he'
          simp only at he'
          obtain ⟨P, rfl⟩ : ∃ P, props = .dict P := by
            rw [enumOf] at he'
            cases props with
            | dict P => exact ⟨P, rfl⟩
            | _ => simp [pyGet, bind, Except.bind] at he'
          cases hb : merged d with
          | error e => rw [hb] at hi; cases hi
          | ok pr =>
            obtain ⟨p, r⟩ := pr
            rw [hb] at hi
            simp only at hi
            have : p = .dict P := by
              rw [merged] at hb
              rw [mergedProps] at hm
              simp only [bind, Except.bind] at hb hm
              cases ha : allOf d with
              | error e => rw [ha] at hb; cases hb
              | ok items =>
                rw [ha] at hb hm
                simp only at hb hm
                have := (mergeBoth_ok hb).1
                rw [hm] at this
                exact (Except.ok.inj this).symm
            subst this
            exact ⟨P, i, rfl, he', hi, rfl, ht⟩

theorem infoOf_parts {P : List (String × Val)} {i : Info} (h : infoOf (.dict P) = .ok i) : attrsFields (.dict P) = .ok i.attrs ∧
    i.hasContent = (lookupKey P "content").isSome ∧ i.hasMarks = (lookupKey P "marks").isSome ∧
    i.hasText = (lookupKey P "text").isSome ∧ i.hasVersion = (lookupKey P "version").isSome := by
  rw [infoOf] at h
  simp only [pyIn, bind, Except.bind, pure, Except.pure] at h
  cases ha : attrsFields (.dict P) with
  | error e => rw [ha] at h; cases h
  | ok a =>
    rw [ha] at h
    simp only [Except.ok.injEq] at h
    subst h
    exact ⟨rfl, rfl, rfl, rfl, rfl⟩

theorem attrsFields_isSome {P : List (String × Val)} {r : Option (List NodeGen.Field)} (h : attrsFields (.dict P) = .ok r) :
    r.isSome = (lookupKey P "attrs").isSome := by
  rw [attrsFields] at h
  simp only [pyIn, pyItem, pyGet, bind, Except.bind, pure, Except.pure] at h
  cases hl : lookupKey P "attrs" with
  | none => rw [hl] at h; simp at h; subst h; rfl
  | some a =>
    rw [hl] at h
    simp only [Option.isSome_some, if_true] at h
    split at h
    · cases h
    · split at h
      · cases h
      · split at h
        · split at h
          · cases h
          · split at h
            · split at h
              · cases h
              · simp at h; subst h; rfl
            · cases h
        · simp at h; subst h; rfl

theorem unlines_append (a b : List Str) : unlines (a ++ b) = unlines a ++ unlines b := by simp [unlines]

theorem lineIf_unlines {P : Prop} {b : Bool} {line text : Str} (h : b = true ↔ P) (ht : text = line ++ ['\n']) :
    ∃ out, LineIf P line out ∧ (if b then text else []) = unlines out := by
  cases b
  · exact ⟨[], .inr ⟨fun hp => by simpa using h.2 hp, rfl⟩, rfl⟩
  · exact ⟨[line], .inl ⟨h.1 rfl, rfl⟩, by simp [unlines, ht]⟩

theorem nodeOnly_lines {k : Kind} {P : Prop} {b : Bool} {line : Str} (h : b = true ↔ P) :
    ∃ out, LineIf (k = .node ∧ P) line out ∧ nodeOnly k (if b then line ++ ['\n'] else []) = unlines out := by
  cases k with
  | mark => exact ⟨[], .inr ⟨fun h => Kind.noConfusion h.1, rfl⟩, rfl⟩
  | node => exact lineIf_unlines (by simp [h]) rfl

set_option simprocs false in
theorem nodeFields_lines (i : Info) : nodeFields i =
    (if i.hasContent then "    content: T.List[BaseNode] = OPT".toList ++ ['\n'] else []) ++
    (if i.hasMarks then "    marks: T.List[BaseMark] = OPT".toList ++ ['\n'] else []) ++
    (if i.hasText then "    text: str = OPT".toList ++ ['\n'] else []) ++
    (if i.hasVersion then "    version: int = dataclasses.field(default=1)".toList ++ ['\n'] else []) := by
  have e1 : "    content: T.List[BaseNode] = OPT\n".toList = "    content: T.List[BaseNode] = OPT".toList ++ ['\n'] := by decide +kernel
  have e2 : "    marks: T.List[BaseMark] = OPT\n".toList = "    marks: T.List[BaseMark] = OPT".toList ++ ['\n'] := by decide +kernel
  have e3 : "    text: str = OPT\n".toList = "    text: str = OPT".toList ++ ['\n'] := by decide +kernel
  have e4 : "    version: int = dataclasses.field(default=1)\n".toList =
    "    version: int = dataclasses.field(default=1)".toList ++ ['\n'] := by decide +kernel
  delta nodeFields
  rw [e1, e2, e3, e4]

theorem attrsLine (cls : Str) : "    attrs: ".toList ++ cls ++ "Attrs = OPT\n".toList =
    "    attrs: ".toList ++ cls ++ "Attrs = OPT".toList ++ ['\n'] := by
  have e : "Attrs = OPT\n".toList = "Attrs = OPT".toList ++ ['\n'] := by decide +kernel
  rw [e, ← List.append_assoc]

/-- The generated module, line by line: the head, the class of the attributes if the definition has attributes, and the class
of the node or mark with one field for each property the parser knows (for a mark only `attrs`).  The class of the attributes has
exactly the declared properties as fields, those that are required first (Python refuses a field without default after one with
a default), both parts in alphabetical order. -/
theorem C76_module {env : Env} {k : Kind} {defs : Defs} {t : Str} {n : Names} {text : Str} {d : List (String × Val)}
    (hu : Spec.UniqueKeys (.dict defs)) (hg : Generates env k defs (t ++ suffix k) n text)
    (hd : lookupKey defs (String.ofList (t ++ suffix k)) = some (.dict d))
    (hw : ∀ v, Declares d "attrs" v → ∃ a, v = .dict a ∧ AttrsSchema a) :
    ∃ attrs fAttrs fContent fMarks fText fVersion,
      text = unlines (headLines k t n.moduleName n.className ++ attrs ++ classLines k t n.className (n.typeEnum.pyStr env) ++
        fAttrs ++ fContent ++ fMarks ++ fText ++ fVersion) ∧
      ((attrs = [] ∧ ¬ ∃ v, Declares d "attrs" v) ∨
       ∃ a req opt, attrs = attrsLines n.className req opt ∧ Declares d "attrs" (.dict a) ∧
        (∀ f h, (f, h) ∈ req ↔ ∃ p, HasAttr a f p ∧ h = hint p ∧ Requires a f) ∧
        (∀ f h, (f, h) ∈ opt ↔ ∃ p, HasAttr a f p ∧ h = hint p ∧ ¬ Requires a f) ∧
        (req.map Prod.fst).Pairwise (· < ·) ∧ (opt.map Prod.fst).Pairwise (· < ·)) ∧
      LineIf (∃ v, Declares d "attrs" v) ("    attrs: ".toList ++ n.className ++ "Attrs = OPT".toList) fAttrs ∧
      LineIf (k = .node ∧ ∃ v, Declares d "content" v) "    content: T.List[BaseNode] = OPT".toList fContent ∧
      LineIf (k = .node ∧ ∃ v, Declares d "marks" v) "    marks: T.List[BaseMark] = OPT".toList fMarks ∧
      LineIf (k = .node ∧ ∃ v, Declares d "text" v) "    text: str = OPT".toList fText ∧
      LineIf (k = .node ∧ ∃ v, Declares d "version" v) "    version: int = dataclasses.field(default=1)".toList fVersion := by
  obtain ⟨P, i, hP, -, hi, htext, ht⟩ := generates_parts hg hd
  obtain ⟨i1, i2, i3, i4, i5⟩ := infoOf_parts hi
  have hdu : Spec.UniqueKeys (.dict d) := uniqueGet hu hd
  have decl := merged_declares hdu hP
  have some_iff : ∀ key, (lookupKey P key).isSome = true ↔ ∃ v, Declares d key v := by
    intro key
    rw [Option.isSome_iff_exists]
    exact exists_congr fun v => decl key v
  obtain ⟨fA, hA, eA⟩ := lineIf_unlines (line := "    attrs: ".toList ++ n.className ++ "Attrs = OPT".toList)
    (text := "    attrs: ".toList ++ n.className ++ "Attrs = OPT\n".toList)
    (b := i.attrs.isSome) (P := ∃ v, Declares d "attrs" v) (by rw [attrsFields_isSome i1]; exact some_iff _)
    (attrsLine _)
  have field : ∀ (key : String) (line : Str) (b : Bool), b = (lookupKey P key).isSome → ∃ out,
      LineIf (k = .node ∧ ∃ v, Declares d key v) line out ∧ nodeOnly k (if b then line ++ ['\n'] else []) = unlines out :=
    fun key line b hb => nodeOnly_lines (by rw [hb, some_iff])
  obtain ⟨fC, hC, eC⟩ := field "content" "    content: T.List[BaseNode] = OPT".toList i.hasContent i2
  obtain ⟨fM, hM, eM⟩ := field "marks" "    marks: T.List[BaseMark] = OPT".toList i.hasMarks i3
  obtain ⟨fT, hT, eT⟩ := field "text" "    text: str = OPT".toList i.hasText i4
  obtain ⟨fV, hV, eV⟩ := field "version" "    version: int = dataclasses.field(default=1)".toList i.hasVersion i5
  have fields : nodeOnly k (nodeFields i) = unlines fC ++ unlines fM ++ unlines fT ++ unlines fV := by
    rw [← eC, ← eM, ← eT, ← eV, nodeFields_lines, nodeOnly_append, nodeOnly_append, nodeOnly_append]
  rw [moduleText_lines, fields, eA, ht] at htext
  cases ha : lookupKey P "attrs" with
  | none =>
    have hnone : i.attrs = none := by
      have := attrsFields_isSome i1
      rw [ha] at this
      cases h : i.attrs with
      | none => rfl
      | some x => rw [h] at this; cases this
    refine ⟨[], fA, fC, fM, fT, fV, ?_, .inl ⟨rfl, ?_⟩, hA, hC, hM, hT, hV⟩
    · rw [htext, hnone, attrsClass_none]
      simp only [unlines_append, List.append_assoc, List.append_nil]
    · rintro ⟨v, hv⟩
      rw [(decl "attrs" v).2 hv] at ha
      cases ha
  | some v =>
    obtain ⟨a, rfl, hwa⟩ := hw v ((decl "attrs" v).1 ha)
    have hau : Spec.UniqueKeys (.dict a) := by
      rcases (decl "attrs" (.dict a)).1 ha with ⟨l, e, r, h1, h2, -⟩ | ⟨-, h2⟩
      · have he : Spec.UniqueKeys e := by
          rw [allOfItems] at h1
          cases hl : lookupKey d "allOf" with
          | none => rw [hl] at h1; simp at h1
          | some w =>
            rw [hl] at h1
            have hwu := uniqueGet hdu hl
            cases w with
            | list l' =>
              simp only at h1
              rw [Spec.UniqueKeys] at hwu
              exact uniqueList hwu e (by rw [h1]; simp)
            | _ => simp at h1
        exact own_unique he h2
      · exact own_unique hdu h2
    obtain ⟨req, opt, h1, h2, h3, h4, h5⟩ := attrsFields_spec ha hau hwa i1
    refine ⟨attrsLines n.className req opt, fA, fC, fM, fT, fV, ?_, .inr ⟨a, req, opt, rfl, (decl _ _).1 ha, h2, h3, h4, h5⟩,
      hA, hC, hM, hT, hV⟩
    rw [htext, h1, attrsClass_lines]
    simp only [unlines_append, List.append_assoc]

/-- The definition of a node with attributes, one of them required, one declared by `allOf` only. -/
def modDefs : Defs :=
  [("a_node", .dict [("properties", .dict [("type", .dict [("enum", .list [.str ['a']])]), ("content", .dict []),
      ("attrs", .dict [("properties", .dict [("x", .dict [("type", .str "number".toList)]), ("y", .dict [("enum", .list [])]),
        ("b", .dict [("$ref", .str [])])]), ("required", .list [.str ['y']])])]),
    ("allOf", .list [.dict [("properties", .dict [("marks", .dict [])])]])])]

/-- The fields of its attributes: name, type, required. -/
theorem sample_fields : ((extract modDefs "a_node".toList).toOption.bind fun r => r.1.attrs).map
      (fun fs => fs.map fun f => (String.ofList f.name, String.ofList f.type, f.required)) =
    some [("y", "str", true), ("b", "T.Any", false), ("x", "float", false)] := by decide +kernel

theorem sample_generated : (genFile sampleEnv .node modDefs ("a".toList ++ suffix .node)).toOption.isSome = true := by decide +kernel

theorem generates_of {env : Env} {k : Kind} {defs : Defs} {name : Str}
    (h : (genFile env k defs name).toOption.isSome = true) : ∃ n text, Generates env k defs name n text := by
  cases hx : genFile env k defs name with
  | error e => rw [hx] at h; cases h
  | ok y => exact ⟨y.1, y.2.1, y.2.2, hx⟩

/-- The hypotheses of `C76_module`. -/
example : (∃ n text, Generates sampleEnv .node modDefs ("a".toList ++ suffix .node) n text) ∧ Spec.UniqueKeys (.dict modDefs) ∧
    ∃ d, lookupKey modDefs (String.ofList ("a".toList ++ suffix .node)) = some (.dict d) ∧
      ∀ v, Declares d "attrs" v → ∃ a, v = .dict a ∧ AttrsSchema a := by
  refine ⟨?_, ?_, ?_⟩
  · exact generates_of sample_generated
  · simp [modDefs, Spec.UniqueKeys, Spec.UniqueKeysDict, Spec.UniqueKeysList]
  · refine ⟨_, rfl, fun v hv => ?_⟩
    rw [← merged_declares (P := [("type", .dict [("enum", .list [.str ['a']])]), ("content", .dict []),
      ("attrs", .dict [("properties", .dict [("x", .dict [("type", .str "number".toList)]), ("y", .dict [("enum", .list [])]),
        ("b", .dict [("$ref", .str [])])]), ("required", .list [.str ['y']])]), ("marks", .dict [])]) _ rfl] at hv
    · simp [lookupKey] at hv
      refine ⟨_, hv.symm, ?_, ?_⟩
      · intro w hw
        simp [lookupKey] at hw
        exact ⟨_, hw.symm⟩
      · intro w hw
        simp [lookupKey] at hw
        exact ⟨_, hw.symm, by simp⟩
    · simp [Spec.UniqueKeys, Spec.UniqueKeysDict, Spec.UniqueKeysList]

/-- The type string of a definition is the first value its property `type` allows; without such a value it is the name of the type. -/
theorem C76_type {env : Env} {k : Kind} {defs : Defs} {t : Str} {n : Names} {text : Str} {d : List (String × Val)}
    (hu : Spec.UniqueKeys (.dict defs)) (hg : Generates env k defs (t ++ suffix k) n text)
    (hd : lookupKey defs (String.ofList (t ++ suffix k)) = some (.dict d)) :
    (∀ x e l, Declares d "type" (.dict x) → lookupKey x "enum" = some (.list (e :: l)) → n.typeEnum = e) ∧
    ((¬ ∃ x v, Declares d "type" (.dict x) ∧ lookupKey x "enum" = some v) → n.typeEnum = .str t) := by
  obtain ⟨P, i, hP, he, -, -, -⟩ := generates_parts hg hd
  have decl := merged_declares (uniqueGet hu hd) hP
  have hdef : ∀ e : Val, (if Analyze.endsWith (t ++ suffix k) "_mark".toList then Except.ok (Val.str (chop (t ++ suffix k)))
      else if Analyze.endsWith (t ++ suffix k) "_node".toList then Except.ok (Val.str (chop (t ++ suffix k)))
      else (Except.ok (Val.str (t ++ suffix k)) : Except PyErr Val)) = .ok e → e = .str t := by
    intro e h
    rw [chop_suffix] at h
    cases k with
    | mark =>
      rw [if_pos (show Analyze.endsWith (t ++ suffix .mark) "_mark".toList = true from endsWith_suffix t .mark)] at h
      exact (Except.ok.inj h).symm
    | node =>
      rw [if_pos (show Analyze.endsWith (t ++ suffix .node) "_node".toList = true from endsWith_suffix t .node), ite_self] at h
      exact (Except.ok.inj h).symm
  rw [enumOf] at he
  simp only [pyGet, bind, Except.bind, pure, Except.pure] at he
  constructor
  · intro x e l hx hl
    rw [(decl _ _).2 hx] at he
    simp [pyIn, pyItem, hl, truthy, pyFirst] at he
    exact he.symm
  · intro hno
    cases ht : lookupKey P "type" with
    | none =>
      rw [ht] at he
      simp only [Option.getD_none, pyIn, lookupKey, Option.isSome_none, Bool.false_eq_true, if_false] at he
      exact hdef _ he
    | some v =>
      rw [ht] at he
      simp only [Option.getD_some] at he
      have hn : pyIn "enum" v = .ok false := by
        cases hb : pyIn "enum" v with
        | error e => rw [hb] at he; cases he
        | ok b =>
          cases b with
          | false => rfl
          | true =>
            rw [hb] at he
            cases v with
            | dict x =>
              rw [pyIn, Except.ok.injEq, Option.isSome_iff_exists] at hb
              obtain ⟨w, hw⟩ := hb
              exact absurd ⟨x, w, (decl _ _).1 ht, hw⟩ hno
            | _ => simp [pyItem] at he
      rw [hn] at he
      simp only [Bool.false_eq_true, if_false] at he
      exact hdef _ he

/-- The sample satisfies the hypotheses (see above); so does a definition without `type`. -/
example : (∃ n text, Generates sampleEnv .mark [("em_mark", .dict [])] ("em".toList ++ suffix .mark) n text ∧
    n.typeEnum = .str "em".toList) ∧ Spec.UniqueKeys (.dict [("em_mark", .dict [])]) ∧
    ¬ ∃ x v, Declares [] "type" (.dict x) ∧ lookupKey x "enum" = some v := by
  refine ⟨⟨_, _, ⟨_, rfl⟩, rfl⟩, by simp [Spec.UniqueKeys, Spec.UniqueKeysDict], ?_⟩
  rintro ⟨x, v, (⟨l, e, r, h, -⟩ | ⟨-, h⟩), -⟩
  · simp [allOfItems, lookupKey] at h
  · simp [own, lookupKey] at h

end Verif.Props
