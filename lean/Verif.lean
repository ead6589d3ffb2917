import Verif.Props.DtRange3
import Verif.Props.MathTools
import Verif.Props.Pdf
import Verif.Props.ChoiceProb
import Verif.Props.Fixed
import Verif.Props.Group
import Verif.Props.GroupList
import Verif.Props.Text3
import Verif.Props.Wrappers
import Verif.Props.Rebind
import Verif.Props.Profile
import Verif.Props.World
import Verif.Props.Seeds3
import Verif.Props.Unrelated
import Verif.Props.Contract
import Verif.Props.Heap
import Verif.Props.Heap2
import Verif.Props.Heap3
import Verif.Props.Heap4
import Verif.Props.Halt
import Verif.Props.Halt2
import Verif.Model.Assign
import Verif.Spec.Assign
import Verif.Props.Assign
import Verif.Proofs.Relabel
import Verif.Props.Assign2
import Verif.Props.DtRange4
import Verif.Props.DtRange5
import Verif.Props.DtRange6
import Verif.Props.Source
import Verif.Proofs.Shuffle
import Verif.Proofs.DrawTree
import Verif.Props.ShuffleProb
import Verif.Props.ShuffleProb2
import Verif.Props.ChoiceProb2
import Verif.Props.Exact
import Verif.Props.Unhashable
import Verif.Props.BadNumber
import Verif.Py.Double
import Verif.Proofs.Double
import Verif.Model.ChoiceFloat
import Verif.Props.ChoiceFloat
import Verif.Model.Pdf
import Verif.Props.PdfFloat
import Verif.Props.FloatProb
import Verif.Model.DtAware
import Verif.Props.DtAware
import Verif.Model.ShuffleFloat
import Verif.Props.ShuffleFloat
import Verif.Props.ChoiceEx
import Verif.Props.StoreCounts
import Verif.Props.Negative
import Verif.Props.NegativeStore
import Verif.Spec.Batch
import Verif.Proofs.Batch
import Verif.Proofs.Batch2
import Verif.Proofs.Batch3
import Verif.Proofs.Batch4
import Verif.Props.Batch
import Verif.Props.Natural
import Verif.Props.IterFactory
import Verif.Props.DocSet
import Verif.Props.Alias
import Verif.Props.Copies
import Verif.Spec.Gate
import Verif.Props.Gate
import Verif.Spec.WordDraw
import Verif.Props.WordDraw
import Verif.Model.DtZone
import Verif.Spec.DtZone
import Verif.Props.DtZone
import Verif.Spec.AliasValues
import Verif.Props.AliasValues
import Verif.Model.BadSeed
import Verif.Spec.BadSeed
import Verif.Props.BadSeed
import Verif.Spec.LiveItems
import Verif.Props.LiveItems
import Verif.Model.Names
import Verif.Props.Names
import Verif.Model.LiveSeq
import Verif.Spec.LiveSeq
import Verif.Props.LiveSeq
import Verif.Props.LiveSeq2
import Verif.Py.Twister
import Verif.Conform.Basic
import Verif.Conform.Choice
import Verif.Conform.DtRange
import Verif.Conform.ChoiceRange
import Verif.Conform.MathTools
import Verif.Conform.World
import Verif.Conform.Callbacks
import Verif.Conform.Text
import Verif.Conform.Curves
import Verif.Conform.Fields
import Verif.Conform.Fixed
import Verif.Conform.Wrappers
import Verif.Conform.Schemas
import Verif.Model.DtText
import Verif.Spec.DtText
import Verif.Proofs.DtText
import Verif.Proofs.DtText2
import Verif.Props.DtText
import Verif.Conform.DtRepr
import Verif.Model.DtIso
import Verif.Spec.DtIso
import Verif.Proofs.DtIso
import Verif.Props.DtIso
import Verif.Conform.Datetime
import Verif.Model.DtStep
import Verif.Props.DtStep
import Verif.Conform.FloatStep
import Verif.Spec.Derived
import Verif.Proofs.Derived
import Verif.Props.Derived
import Verif.Model.GroupMap
import Verif.Spec.GroupMap
import Verif.Props.GroupMap
import Verif.Model.Classes
import Verif.Spec.Classes
import Verif.Proofs.Classes
import Verif.Props.Classes
import Verif.Conform.Classes
import Verif.Spec.Recur
import Verif.Proofs.Recur
import Verif.Props.Recur
import Verif.Proofs.ClassSim
import Verif.Model.Interrupt
import Verif.Spec.Interrupt
import Verif.Proofs.Interrupt
import Verif.Proofs.Interrupt2
import Verif.Props.Interrupt
import Verif.Proofs.SeedLaws
import Verif.Props.SeedLaws
import Verif.Spec.Interleave
import Verif.Proofs.Interleave
import Verif.Props.Interleave
import Verif.Spec.Reorder
import Verif.Proofs.Reorder
import Verif.Props.Reorder
import Verif.Model.PySet
import Verif.Spec.PySet
import Verif.Props.PySet
import Verif.Spec.Shared
import Verif.Props.Shared
import Verif.Model.WrapObj
import Verif.Spec.WrapObj
import Verif.Props.WrapObj
import Verif.Spec.LostSeed
import Verif.Proofs.LostSeed
import Verif.Props.LostSeed
import Verif.Spec.Onward
import Verif.Proofs.Onward
import Verif.Proofs.Recycle
import Verif.Props.Onward
import Verif.Spec.TextDraw
import Verif.Props.TextDraw
import Verif.Model.OverAsk
import Verif.Props.OverAsk
import Verif.Spec.FieldDraw
import Verif.Props.FieldDraw
import Verif.Spec.WrapDraw
import Verif.Props.WrapDraw
import Verif.Spec.RepeatDraw
import Verif.Props.RepeatDraw
import Verif.Model.LiveSchema
import Verif.Spec.LiveSchema
import Verif.Props.LiveSchema
import Verif.Spec.SchemaApart
import Verif.Props.SchemaApart
import Verif.Proofs.Markov
import Verif.Proofs.Markov2
import Verif.Spec.CallDraw
import Verif.Props.CallDraw
import Verif.Model.Abstract
import Verif.Spec.Abstract
import Verif.Props.Abstract
import Verif.Conform.Abstract
import Verif.Spec.LongRun
import Verif.Props.LongRun
import Verif.Spec.DocRun
import Verif.Props.DocRun
import Verif.Spec.TextRead
import Verif.Props.TextRead
import Verif.Spec.MeanRun
import Verif.Props.MeanRun
import Verif.Spec.TextRun
import Verif.Props.TextRun
import Verif.Props.PairRun
import Verif.Spec.Turns
import Verif.Props.Turns
import Verif.Props.GateRun
import Verif.Props.TextSeq
import Verif.Props.WordSeq
import Verif.Props.Waiting
import Verif.Spec.HowMany
import Verif.Props.Binomial
import Verif.Props.NearShare
import Verif.Props.FarShare
import Verif.Props.Same
import Verif.Props.Cover
