import Verif.Lemmas.Agree
import Verif.Lemmas.AlikeBase
import Verif.Lemmas.AlikeFit
import Verif.Lemmas.AlikeNum
import Verif.Lemmas.AlikeObject
import Verif.Lemmas.AnsweredFit
import Verif.Lemmas.AnsweredObject
import Verif.Lemmas.AnsweredStep
import Verif.Lemmas.Argmax
import Verif.Lemmas.Argsort
import Verif.Lemmas.Bagging
import Verif.Lemmas.Basic
import Verif.Lemmas.BatchChain
import Verif.Lemmas.BatchTools
import Verif.Lemmas.ClassOrderBase
import Verif.Lemmas.ClassOrderFit
import Verif.Lemmas.ClassOrderLabels
import Verif.Lemmas.ClassOrderObject
import Verif.Lemmas.Columns
import Verif.Lemmas.Construct
import Verif.Lemmas.Convert
import Verif.Lemmas.Direction
import Verif.Lemmas.DirectionObject
import Verif.Lemmas.DirectionText
import Verif.Lemmas.Dot
import Verif.Lemmas.EnclosureArith
import Verif.Lemmas.EnclosureFit
import Verif.Lemmas.EnclosureObject
import Verif.Lemmas.Encode
import Verif.Lemmas.EndToEnd
import Verif.Lemmas.EnsembleBatch
import Verif.Lemmas.EnsembleError
import Verif.Lemmas.Folded
import Verif.Lemmas.GB
import Verif.Lemmas.GBBatch
import Verif.Lemmas.Gauge
import Verif.Lemmas.GaugeFit
import Verif.Lemmas.GaugeObject
import Verif.Lemmas.Hasher
import Verif.Lemmas.Idle
import Verif.Lemmas.Impute
import Verif.Lemmas.Joined
import Verif.Lemmas.KindBatch
import Verif.Lemmas.Labels
import Verif.Lemmas.LeafRecord
import Verif.Lemmas.Linear
import Verif.Lemmas.LinearError
import Verif.Lemmas.LinearExact
import Verif.Lemmas.LinkError
import Verif.Lemmas.Links
import Verif.Lemmas.Mat
import Verif.Lemmas.MemberOrder
import Verif.Lemmas.MemberOrderObject
import Verif.Lemmas.Murmur
import Verif.Lemmas.NaiveBayes
import Verif.Lemmas.Needs
import Verif.Lemmas.NoTrap
import Verif.Lemmas.Normalize
import Verif.Lemmas.ObjectBatch
import Verif.Lemmas.Parts
import Verif.Lemmas.Peak
import Verif.Lemmas.PeakExact
import Verif.Lemmas.Reads
import Verif.Lemmas.RecodeArith
import Verif.Lemmas.RecodeFit
import Verif.Lemmas.RecodeObject
import Verif.Lemmas.RecodeStep
import Verif.Lemmas.Records
import Verif.Lemmas.Redrawn
import Verif.Lemmas.Regrouped
import Verif.Lemmas.Relabel
import Verif.Lemmas.RisingArith
import Verif.Lemmas.RisingFit
import Verif.Lemmas.RisingObject
import Verif.Lemmas.Rounded
import Verif.Lemmas.RoundedLinks
import Verif.Lemmas.RowWise
import Verif.Lemmas.SameMatrix
import Verif.Lemmas.SameMatrixObject
import Verif.Lemmas.Scale
import Verif.Lemmas.ShuffleFit
import Verif.Lemmas.ShuffleObject
import Verif.Lemmas.SkTree
import Verif.Lemmas.Spares
import Verif.Lemmas.Sparse
import Verif.Lemmas.StepRecord
import Verif.Lemmas.SumError
import Verif.Lemmas.SumOne
import Verif.Lemmas.Text
import Verif.Lemmas.TextUnion
import Verif.Lemmas.TransformBatch
import Verif.Lemmas.Tree
import Verif.Lemmas.TreeBatch
import Verif.Lemmas.TreeEncode
import Verif.Lemmas.UnfailingFit
import Verif.Lemmas.UnfailingObject
import Verif.Lemmas.UnfailingStep
import Verif.Lemmas.Union
import Verif.Lemmas.UnionBatch
import Verif.Lemmas.Unladen
import Verif.Lemmas.UnreadFit
import Verif.Lemmas.UnreadObject
import Verif.Lemmas.Utf8
import Verif.Lemmas.XR
import Verif.Lemmas.Xgb
import Verif.Lemmas.XgbObject
import Verif.Model.Base
import Verif.Model.Construct
import Verif.Model.Convert
import Verif.Model.Documents
import Verif.Model.Encoders
import Verif.Model.Ensemble
import Verif.Model.FastText
import Verif.Model.Hash
import Verif.Model.Heap
import Verif.Model.Impute
import Verif.Model.Labels
import Verif.Model.Linear
import Verif.Model.Metrics
import Verif.Model.NaiveBayes
import Verif.Model.Object
import Verif.Model.Pipeline
import Verif.Model.Preprocessing
import Verif.Model.Profile
import Verif.Model.Regex
import Verif.Model.Shared
import Verif.Model.Text
import Verif.Model.Tree
import Verif.Model.Utils
import Verif.Props.C01
import Verif.Props.C02
import Verif.Props.C03
import Verif.Props.C04
import Verif.Props.C05
import Verif.Props.C06
import Verif.Props.C07
import Verif.Props.C08
import Verif.Props.C09
import Verif.Props.C10
import Verif.Props.C100
import Verif.Props.C101
import Verif.Props.C102
import Verif.Props.C103
import Verif.Props.C104
import Verif.Props.C105
import Verif.Props.C106
import Verif.Props.C107
import Verif.Props.C108
import Verif.Props.C109
import Verif.Props.C11
import Verif.Props.C110
import Verif.Props.C111
import Verif.Props.C111Labels
import Verif.Props.C112
import Verif.Props.C112Stages
import Verif.Props.C113
import Verif.Props.C114
import Verif.Props.C115
import Verif.Props.C116
import Verif.Props.C117
import Verif.Props.C118
import Verif.Props.C119
import Verif.Props.C12
import Verif.Props.C120
import Verif.Props.C121
import Verif.Props.C122
import Verif.Props.C123
import Verif.Props.C13
import Verif.Props.C14
import Verif.Props.C15
import Verif.Props.C16
import Verif.Props.C17
import Verif.Props.C18
import Verif.Props.C19
import Verif.Props.C20
import Verif.Props.C21
import Verif.Props.C22
import Verif.Props.C23
import Verif.Props.C24
import Verif.Props.C25
import Verif.Props.C26
import Verif.Props.C27
import Verif.Props.C28
import Verif.Props.C29
import Verif.Props.C30
import Verif.Props.C31
import Verif.Props.C32
import Verif.Props.C33
import Verif.Props.C34
import Verif.Props.C35
import Verif.Props.C36
import Verif.Props.C37
import Verif.Props.C38
import Verif.Props.C39
import Verif.Props.C40
import Verif.Props.C41
import Verif.Props.C42
import Verif.Props.C43
import Verif.Props.C44
import Verif.Props.C45
import Verif.Props.C46
import Verif.Props.C47
import Verif.Props.C48
import Verif.Props.C49
import Verif.Props.C50
import Verif.Props.C51
import Verif.Props.C52
import Verif.Props.C53
import Verif.Props.C54
import Verif.Props.C55
import Verif.Props.C56
import Verif.Props.C57
import Verif.Props.C58
import Verif.Props.C59
import Verif.Props.C60
import Verif.Props.C61
import Verif.Props.C62
import Verif.Props.C63
import Verif.Props.C64
import Verif.Props.C65
import Verif.Props.C66
import Verif.Props.C67
import Verif.Props.C68
import Verif.Props.C69
import Verif.Props.C70
import Verif.Props.C71
import Verif.Props.C72
import Verif.Props.C73
import Verif.Props.C74
import Verif.Props.C75
import Verif.Props.C76
import Verif.Props.C77
import Verif.Props.C78
import Verif.Props.C79
import Verif.Props.C80
import Verif.Props.C81
import Verif.Props.C82
import Verif.Props.C83
import Verif.Props.C83Pair
import Verif.Props.C84
import Verif.Props.C85
import Verif.Props.C86
import Verif.Props.C87
import Verif.Props.C88
import Verif.Props.C89
import Verif.Props.C90
import Verif.Props.C91
import Verif.Props.C92
import Verif.Props.C93
import Verif.Props.C94
import Verif.Props.C95
import Verif.Props.C96
import Verif.Props.C97
import Verif.Props.C98
import Verif.Props.C99
import Verif.Py.Arith
import Verif.Py.Arr
import Verif.Py.Binary64
import Verif.Py.Core
import Verif.Py.ExpMono
import Verif.Py.FPError
import Verif.Py.PyNum
import Verif.Py.XR
import Verif.Spec.Accuracy
import Verif.Spec.Alias
import Verif.Spec.Alike
import Verif.Spec.Answered
import Verif.Spec.Batch
import Verif.Spec.BatchChain
import Verif.Spec.BoosterRows
import Verif.Spec.Boosting
import Verif.Spec.ClassOrder
import Verif.Spec.Columns
import Verif.Spec.Construct
import Verif.Spec.Convert
import Verif.Spec.ConvertTree
import Verif.Spec.Direction
import Verif.Spec.Documents
import Verif.Spec.Drift
import Verif.Spec.Embedding
import Verif.Spec.Enclosure
import Verif.Spec.Encode
import Verif.Spec.EndToEnd
import Verif.Spec.Ensemble
import Verif.Spec.FittedBooster
import Verif.Spec.Folded
import Verif.Spec.Gauge
import Verif.Spec.Idle
import Verif.Spec.Impute
import Verif.Spec.Joined
import Verif.Spec.Labels
import Verif.Spec.Linear
import Verif.Spec.Loss
import Verif.Spec.Matrix
import Verif.Spec.MemberOrder
import Verif.Spec.Methods
import Verif.Spec.MostLikely
import Verif.Spec.Murmur
import Verif.Spec.NaiveBayes
import Verif.Spec.Needs
import Verif.Spec.Normalize
import Verif.Spec.Pairwise
import Verif.Spec.Pipeline
import Verif.Spec.Presentations
import Verif.Spec.PyNumbers
import Verif.Spec.Reads
import Verif.Spec.Recode
import Verif.Spec.Records
import Verif.Spec.Redrawn
import Verif.Spec.Regrouped
import Verif.Spec.Relabel
import Verif.Spec.Relisted
import Verif.Spec.Requests
import Verif.Spec.Rising
import Verif.Spec.SameMatrix
import Verif.Spec.Scale
import Verif.Spec.Shuffle
import Verif.Spec.Single
import Verif.Spec.SkTree
import Verif.Spec.StageOrder
import Verif.Spec.Text
import Verif.Spec.TopK
import Verif.Spec.Tree
import Verif.Spec.Unfailing
import Verif.Spec.Unladen
import Verif.Spec.Unread
import Verif.Spec.Utf8
import Verif.Spec.Xgb
