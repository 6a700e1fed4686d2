import Verif.Model.FciObject
import Verif.Model.IcdObject
import Verif.Model.RaiObject
import Verif.Model.OIcdObject
import Verif.Model.CiTest
import Verif.Spec.OrderedIcd

/-!
# Specification of C103: two test objects from which the learners learn the same
-/

namespace Verif

/-- From the two test objects each learner, with any options and any iteration order of sets, learns the same graph, separating sets and
number of tests, or ends with the same exception. -/
structure SameLearned {R R' : Type} (N : Finset Int) (ask : CiState R → Int → Int → List Int → Py Bool × CiState R) (s : CiState R)
    (ask' : CiState R' → Int → Int → List Int → Py Bool × CiState R') (s' : CiState R') : Prop where
  pc : ∀ (o : SetOrder Int) (overwrite : Bool), (Pc.learnStructureObj o ask overwrite (Pc.init o N) s).map Prod.fst =
    (Pc.learnStructureObj o ask' overwrite (Pc.init o N) s').map Prod.fst
  fci : ∀ (o : SetOrder Int) (selection tails : Bool), (Fci.learnStructureObj o ask selection tails N s).map Prod.fst =
    (Fci.learnStructureObj o ask' selection tails N s').map Prod.fst
  icd : ∀ (o : SetOrder Int) (opts : IcdOpts), (Icd.learnStructureObj o ask opts (Icd.init o N) s).map Prod.fst =
    (Icd.learnStructureObj o ask' opts (Icd.init o N) s').map Prod.fst
  rai : ∀ (o : SetOrder Int) (overwrite : Bool), (Rai.learnStructureObj o ask overwrite (Rai.init o N) s).map Prod.fst =
    (Rai.learnStructureObj o ask' overwrite (Rai.init o N) s').map Prod.fst
  ordered : ∀ (o : SetOrder Int) (opts : OIcdOpts Int) (isLocal : Bool), OIcd.IsOrder opts.order N →
    (OIcd.learnStructureObj o ask opts isLocal (OIcd.first o N) s).map Prod.fst =
      (OIcd.learnStructureObj o ask' opts isLocal (OIcd.first o N) s').map Prod.fst

end Verif
