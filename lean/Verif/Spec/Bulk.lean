import Verif.Rtree.Bulk
import Verif.Spec.RtreeOps

/-!
# Specification vocabulary for bulk loading
-/

namespace GoGeo.Spec
variable {F : Type} [GoFloat F]

/-- the height computed by `bulkLoad` (with `math.Log2`) is large enough for `n` objects -/
def HeightOk (cfg : OmtCfg) (n : Nat) (max : Int) : Prop :=
  1 ≤ cfg.height n max.toNat ∧ n ≤ max.toNat ^ cfg.height n max.toNat

/-- a call that only removes objects -/
def Op.deletes : Op F → Prop
  | .delete _ | .deleteWith _ _ | .deleteID _ => True
  | _ => False

/-- a tree bulk loaded from `objs`, followed by deletions that did not panic -/
def BulkReached (cfg : OmtCfg) (srt : GoSort) (grow : Nat → Nat) (min max : Int) (objs : List (Spatial F))
    (s : RState F) : Prop :=
  ∃ s0 ops bs, NewMinMaxTree cfg srt grow min max objs = .ok s0 ∧ (∀ op ∈ ops, Op.deletes op) ∧
    runAll grow ops s0 = .ok (s, bs)

end GoGeo.Spec
