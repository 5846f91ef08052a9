import Verif.Py.Val
/-!
# Values that JSON text can hold

What a user may store in a document: everything `json` can write, with floats given by the `repr` that Python prints.
-/

namespace Verif.Spec

/-- One or more decimal digits. -/
def Digits (s : List Char) : Prop := s ≠ [] ∧ ∀ c ∈ s, c ∈ "0123456789".toList

/-- The shape of the `repr` of a finite float: sign, integer part without leading zeros, and a fraction or an exponent
(or both), e.g. `-0.25`, `1e+16`, `1.5e-07`. -/
structure FiniteFloat (r : List Char) : Prop where
  shape : ∃ sign ip frac exp : List Char, r = sign ++ ip ++ frac ++ exp ∧
    (sign = [] ∨ sign = ['-']) ∧
    (Digits ip ∧ (ip = ['0'] ∨ ip.head? ≠ some '0')) ∧
    (frac = [] ∨ ∃ d, Digits d ∧ frac = '.' :: d) ∧
    (exp = [] ∨ ∃ sg d, Digits d ∧ (sg = [] ∨ sg = ['-'] ∨ sg = ['+']) ∧ exp = 'e' :: sg ++ d) ∧
    ¬ (frac = [] ∧ exp = [])

/-- The `repr` of a float, finite or not, as the interpreter whose `float(text)` has the `repr` `readFloat text` prints
it: reading it gives the float back. -/
def FloatRepr (readFloat : List Char → List Char) (r : List Char) : Prop :=
  r = "nan".toList ∨ r = "inf".toList ∨ r = "-inf".toList ∨ (FiniteFloat r ∧ readFloat r = r)

mutual
/-- Plain data: no sentinel in it, every dict has each key once, floats are what Python prints. -/
def Data (readFloat : List Char → List Char) : Val → Prop
  | .opt => False
  | .float r => FloatRepr readFloat r
  | .list l => DataList readFloat l
  | .dict d => (d.map Prod.fst).Nodup ∧ DataDict readFloat d
  | _ => True
/-- `Data` for every element. -/
def DataList (readFloat : List Char → List Char) : List Val → Prop
  | [] => True
  | v :: l => Data readFloat v ∧ DataList readFloat l
/-- `Data` for every value of a dict. -/
def DataDict (readFloat : List Char → List Char) : List (String × Val) → Prop
  | [] => True
  | (_, v) :: d => Data readFloat v ∧ DataDict readFloat d
end

end Verif.Spec
