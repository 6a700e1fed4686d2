import Verif.Spec.Icd
import Verif.Model.OrderedIcd

/-!
# Specification vocabulary for ordered ICD
-/

namespace Verif
variable {α : Type}

/-- `a` is before `b` in the list. -/
def Before (order : List α) (a b : α) : Prop := List.Sublist [a, b] order

instance [DecidableEq α] (order : List α) (a b : α) : Decidable (Before order a b) :=
  inferInstanceAs (Decidable (List.Sublist [a, b] order))

namespace MG

/-- All edges have an arrowhead at the later node. -/
def OrdMarks (order : List α) (G : MG α) : Prop := ∀ a b m, Before order a b → G.At a b m → m = .arrow

/-- All nodes are adjacent. -/
def Complete (G : MG α) : Prop := ∀ a ∈ G.nodes, ∀ b ∈ G.nodes, a ≠ b → G.MAdj a b

end MG
namespace OIcd
variable [LinearOrder α]
open MG

/-- Recorded sets of pairs that are not adjacent consist of nodes before the later one of the two. -/
def SepBefore (order : List α) (G : MG α) (sep : SepSet α) : Prop :=
  ∀ a b, Before order a b → ¬ G.MAdj a b → ∃ S, sep.get a b = .ok S ∧ ∀ v ∈ S, Before order v b

/-- … and have at most `k` elements. -/
def SepSize (order : List α) (k : Nat) (G : MG α) (sep : SepSet α) : Prop :=
  ∀ a b, Before order a b → ¬ G.MAdj a b → ∃ S, sep.get a b = .ok S ∧ S.card ≤ k

/-- The conditions on a candidate set of size `r` for the pair `a`, `b` (`a` is before `b`), for sets of neighbours of `b`: all
nodes are before `b`, and possible ancestors of `a` (through nodes not after `a`) or of `b` (through nodes not after `b`). -/
structure OrdNbr (order : List α) (G : MG α) (a b : α) (r : Nat) (T : Finset α) : Prop where
  size : T.card = r
  left : a ∉ T
  before : ∀ v ∈ T, Before order v b
  nbr : ∀ v ∈ T, G.MAdj b v
  anc : ∀ v ∈ T, (∃ l, PathVia G.PossPar (order.toFinset.filter (fun x => ¬ Before order a x)) v a l) ∨
    ∃ l, PathVia G.PossPar (order.toFinset.filter (fun x => ¬ Before order b x)) v b l

/-- The list is an order of the nodes. -/
structure IsOrder (order : List α) (N : Finset α) : Prop where
  nodup : order.Nodup
  mem : ∀ v, v ∈ order ↔ v ∈ N

/-- The bound for the size of conditioning sets: `max_cond_size`, or the largest useful size. -/
def sizeBound (opts : OIcdOpts α) : Nat :=
  match opts.maxCond with
  | some m => m
  | none => opts.order.length - 2

/-- The two tests give the same answers with at most `k` conditioning variables. -/
def Agree (k : Nat) (ci ci' : CITest α) : Prop := ∀ n a b z, z.length ≤ k → ci n a b z = ci' n a b z

/-- A call of `learn_structure` or `orient_graph`. -/
def Call (o : SetOrder α) (ci : CITest α) (opts : OIcdOpts α) (st st' : OIcdState α) : Prop :=
  (∃ isLocal, learnStructure o ci opts isLocal st = .ok st') ∨ ∃ anytime, orient o opts anytime st = .ok st'

/-- The states a learner can get to. -/
def Reachable (o : SetOrder α) (ci : CITest α) (opts : OIcdOpts α) (N : Finset α) (st : OIcdState α) : Prop :=
  Relation.ReflTransGen (Call o ci opts) ⟨MG.complete N pagTypes .circle, SepSet.init o N, 0, ∅⟩ st

end OIcd
end Verif
