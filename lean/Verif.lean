import Verif.Model.PySet
import Verif.Model.Py
import Verif.Model.UndirectedGraph
import Verif.Model.Dag
import Verif.Spec.Graph
import Verif.Lemmas.PySet
import Verif.Lemmas.Walk
import Verif.Lemmas.Moral
import Verif.Lemmas.Reach
import Verif.Lemmas.Dsep
import Verif.Lemmas.Markov
import Verif.Lemmas.DagMisc
import Verif.Lemmas.AdjMat
import Verif.Props.Dag
import Verif.Model.MixedGraph
import Verif.Model.Pdag
import Verif.Spec.Pdag
import Verif.Lemmas.Chordal
import Verif.Lemmas.Meek
import Verif.Lemmas.PdagRules
import Verif.Lemmas.Cpdag
import Verif.Lemmas.Extend
import Verif.Props.Pdag
import Verif.Lemmas.PdagReach
import Verif.Props.PdagReach
import Verif.Model.SepSet
import Verif.Model.Pc
import Verif.Spec.SepSet
import Verif.Lemmas.SepSet
import Verif.Lemmas.SepHeap
import Verif.Lemmas.Pc
import Verif.Props.Pc
import Verif.Spec.Mixed
import Verif.Lemmas.Mixed
import Verif.Lemmas.MixedEdit
import Verif.Props.Mixed
import Verif.Model.Pag
import Verif.Model.PagRules
import Verif.Spec.Pag
import Verif.Lemmas.PagQuery
import Verif.Lemmas.PagDisc
import Verif.Lemmas.PagMsep
import Verif.Spec.PagRules
import Verif.Lemmas.PagStep
import Verif.Lemmas.PagRules
import Verif.Lemmas.PagRules2
import Verif.Lemmas.PagRules3
import Verif.Lemmas.PagOrient
import Verif.Lemmas.PagSound
import Verif.Props.Pag
import Verif.Lemmas.PagMat
import Verif.Spec.PagComp
import Verif.Lemmas.PagComp
import Verif.Props.PagComp
import Verif.Lemmas.Py
import Verif.Model.CiTest
import Verif.Spec.CiTest
import Verif.Lemmas.CiTest
import Verif.Props.CiTest
import Verif.Model.Stats
import Verif.Spec.Stats
import Verif.Lemmas.Stats
import Verif.Lemmas.Cmi
import Verif.Lemmas.CmiData
import Verif.Lemmas.VarSize
import Verif.Props.Stats
import Verif.Spec.ParCorr
import Verif.Lemmas.ParCorr
import Verif.Props.ParCorr
import Verif.Lemmas.Unroll
import Verif.Props.Unroll
import Verif.Model.PdsTree
import Verif.Spec.PdsTree
import Verif.Lemmas.PdsTree
import Verif.Lemmas.PdsEdit
import Verif.Lemmas.PdsSearch
import Verif.Lemmas.PdsInit
import Verif.Props.PdsTree
import Verif.Model.Cleann
import Verif.Spec.Cleann
import Verif.Lemmas.Cleann
import Verif.Props.Cleann
import Verif.Props.Synth
import Verif.Props.Score
import Verif.Spec.Pc
import Verif.Model.Fci
import Verif.Model.Icd
import Verif.Spec.Fci
import Verif.Spec.Icd
import Verif.Lemmas.PagVs
import Verif.Lemmas.Fci
import Verif.Lemmas.FciSound
import Verif.Lemmas.Icd
import Verif.Props.Fci
import Verif.Props.FciTails
import Verif.Model.OrderedIcd
import Verif.Spec.OrderedIcd
import Verif.Lemmas.OrdMarks
import Verif.Lemmas.OIcdOrient
import Verif.Lemmas.OIcd
import Verif.Lemmas.OIcdRun
import Verif.Lemmas.OIcdBound
import Verif.Lemmas.OIcdComplete
import Verif.Props.OrderedIcd
import Verif.Model.Perf
import Verif.Spec.Perf
import Verif.Lemmas.Perf
import Verif.Props.Perf
import Verif.Model.Rai
import Verif.Lemmas.Rai
import Verif.Lemmas.RaiCol
import Verif.Props.Rai
import Verif.Model.TsIcd
import Verif.Spec.TsIcd
import Verif.Lemmas.PagKeep
import Verif.Lemmas.TsGrid
import Verif.Lemmas.TsFill
import Verif.Lemmas.TsIcd
import Verif.Lemmas.TsClosed
import Verif.Props.TsIcd
import Verif.Model.Brai
import Verif.Spec.Brai
import Verif.Lemmas.Brai
import Verif.Lemmas.BraiLearn
import Verif.Lemmas.BraiSample
import Verif.Lemmas.BraiMore
import Verif.Props.Brai
import Verif.Model.TruePag
import Verif.Spec.TruePag
import Verif.Lemmas.Mag
import Verif.Lemmas.MagDag
import Verif.Lemmas.IcdWitness
import Verif.Props.TruePag
import Verif.Props.Latent
import Verif.Model.Layout
import Verif.Spec.Layout
import Verif.Lemmas.Layout
import Verif.Props.Layout
import Verif.Model.Draw
import Verif.Spec.Draw
import Verif.Lemmas.Draw
import Verif.Props.Draw
import Verif.Props.DrawRandom
import Verif.Spec.DrawTree
import Verif.Lemmas.DrawTree
import Verif.Props.DrawTree
import Verif.Lemmas.SepOne
import Verif.Lemmas.IcdOne
import Verif.Props.IcdOne
import Verif.Props.IcdTwo
import Verif.Props.IcdPrecalc
import Verif.Props.FciOne
import Verif.Spec.OIcdLatent
import Verif.Props.OIcdLatent
import Verif.Spec.Counter
import Verif.Lemmas.Counter
import Verif.Props.Counter
import Verif.Model.StatsData
import Verif.Spec.StatsData
import Verif.Lemmas.StatsData
import Verif.Props.ParCorrData
import Verif.Spec.CmiCoding
import Verif.Lemmas.CmiCoding
import Verif.Props.CmiCoding
import Verif.Spec.Anytime
import Verif.Lemmas.Anytime
import Verif.Lemmas.AnytimeRun
import Verif.Props.Anytime
import Verif.Lemmas.OIcdKeep
import Verif.Lemmas.OIcdMarks
import Verif.Lemmas.OIcdDeg
import Verif.Lemmas.OIcdDegRun
import Verif.Props.OIcdDeg
import Verif.Lemmas.OIcdWitness
import Verif.Props.OIcdGlobal
import Verif.Props.IcdDeg
import Verif.Model.CiInit
import Verif.Props.CiInit
import Verif.Model.GraphHeap
import Verif.Spec.GraphHeap
import Verif.Lemmas.GraphHeap
import Verif.Props.GraphHeap
import Verif.Lemmas.PagEssential
import Verif.Props.PagEssential
import Verif.Lemmas.VermaPearl
import Verif.Props.VermaPearl
import Verif.Lemmas.NoCollider
import Verif.Lemmas.RaiNoCollider
import Verif.Props.RaiNoCollider
import Verif.Lemmas.IcdLeast
import Verif.Lemmas.IcdNoCollider
import Verif.Props.IcdNoCollider
import Verif.Lemmas.NoColliderMarginal
import Verif.Props.NoColliderLatent
import Verif.Lemmas.OIcdNoCollider
import Verif.Lemmas.OIcdNoColliderRun
import Verif.Props.OIcdNoCollider
import Verif.Props.OIcdNoColliderLatent
import Verif.Spec.PcSequence
import Verif.Lemmas.PcSequence
import Verif.Props.PcSequence
import Verif.Lemmas.PcCount
import Verif.Props.PcCount
import Verif.Spec.Minimal
import Verif.Lemmas.Minimal
import Verif.Props.Minimal
import Verif.Props.Evaluation
import Verif.Lemmas.RaiMinimal
import Verif.Props.RaiMinimal
import Verif.Spec.Rename
import Verif.Lemmas.Rename
import Verif.Lemmas.RenameScore
import Verif.Props.Rename
import Verif.Model.PcObject
import Verif.Lemmas.PcObject
import Verif.Lemmas.PcObjectErr
import Verif.Props.PcObject
import Verif.Model.FciObject
import Verif.Lemmas.FciObject
import Verif.Props.FciObject
import Verif.Model.IcdObject
import Verif.Lemmas.IcdObject
import Verif.Props.IcdObject
import Verif.Model.RaiObject
import Verif.Lemmas.RaiObject
import Verif.Props.RaiObject
import Verif.Model.OIcdObject
import Verif.Lemmas.OIcdObject
import Verif.Props.OIcdObject
import Verif.Spec.DataObject
import Verif.Props.DataObject
import Verif.Props.Agree
import Verif.Lemmas.GraphOps
import Verif.Props.GraphOps
