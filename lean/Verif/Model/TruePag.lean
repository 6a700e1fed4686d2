import Verif.Model.Icd
import Verif.Model.Pc

/-!
# Model of `causal_discovery_utils/performance_measures.py:10-14` (`find_true_pag`)
-/

namespace Verif
variable {α : Type} [LinearOrder α]

/-- `performance_measures.py:10-14` (`find_true_pag`): ICD with the default options (`icd.py:7-8`) and the d-separation oracle of the
true DAG, on the observed nodes. -/
def findTruePag (o : SetOrder α) (D : Dag α) (observed : Finset α) : Py (MG α) := do
  let st ← Icd.learnStructure o (Pc.dsepTest o D) ⟨false, true, true⟩ (Icd.init o observed)
  return st.graph

end Verif
