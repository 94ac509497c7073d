import Verif.Spec.GeoJson

/-! # Documents with repeated members -/

namespace GoGeo.GeoJson
variable {A : Type}

/-- no member has the name `n`, in whatever mixture of cases -/
def Absent (n : String) (m : List (String × Json A)) : Prop := ∀ q ∈ m, ¬ CaseVariant n q.1

/-- no two members have the name `n`, in whatever mixture of cases -/
def Once (n : String) (m : List (String × Json A)) : Prop := m.Pairwise fun p q => ¬ (CaseVariant n p.1 ∧ CaseVariant n q.1)

/-- if the document is an object, `bbox` is not repeated in it -/
def BoxOnce (j : Json A) : Prop := ∀ m, j = .obj m → Once "bbox" m

end GoGeo.GeoJson
