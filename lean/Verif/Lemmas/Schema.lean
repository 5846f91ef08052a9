import Verif.Lemmas.Registry
import Verif.Spec.Keys
/-!
# The model's schema against the specification's key tables
-/

namespace Verif

/-- Names of a field list. -/
def names (fs : List Field) : List String := fs.map (·.name)

theorem nodeFields_names (c : NodeCls) (k : String) :
    k ∈ names c.fields ↔ k ∈ Spec.nodeKeys c := by
  cases c <;>
    simp [names, NodeCls.fields, NodeCls.ownFields, Spec.nodeKeys, Spec.requiredKeys,
      Spec.optionalKeys] <;> grind

theorem attrsFields_names (c : NodeCls) (fs : List Field) (h : c.attrsFields = some fs)
    (k : String) : k ∈ names fs ↔ k ∈ Spec.attrKeys c := by
  cases c <;> simp only [NodeCls.attrsFields, Option.some.injEq, reduceCtorEq] at h <;> subst h <;>
    simp [names, optFields, reqFields, Spec.attrKeys, Spec.requiredAttrs, Spec.optionalAttrs]

theorem markAttrsFields_names (c : MarkCls) (fs : List Field) (h : c.attrsFields = some fs)
    (k : String) : k ∈ names fs ↔ k ∈ Spec.markAttrKeys c := by
  cases c <;> simp only [MarkCls.attrsFields, Option.some.injEq, reduceCtorEq] at h <;> subst h <;>
    simp [names, optFields, reqFields, Spec.markAttrKeys, Spec.requiredMarkAttrs,
      Spec.optionalMarkAttrs]

theorem nodeFields_nodup (c : NodeCls) : (names c.fields).Nodup := by
  cases c <;> decide

theorem attrsFields_nodup (c : NodeCls) (fs : List Field) (h : c.attrsFields = some fs) :
    (names fs).Nodup := by
  cases c <;> simp only [NodeCls.attrsFields, Option.some.injEq, reduceCtorEq] at h <;> subst h <;>
    decide

theorem markAttrsFields_nodup (c : MarkCls) (fs : List Field) (h : c.attrsFields = some fs) :
    (names fs).Nodup := by
  cases c <;> simp only [MarkCls.attrsFields, Option.some.injEq, reduceCtorEq] at h <;> subst h <;>
    decide

theorem fieldDflt_isSome_iff (fs : List Field) (k : String) :
    (fieldDflt fs k).isSome = true ↔ k ∈ names fs := by
  simp [fieldDflt, names]

end Verif
