import Verif.PyNum
import Verif.PyReal
import Verif.PyFloat
import Verif.Model.Misc
import Verif.Model.State
import Verif.Model.Diffraction
import Verif.Model.Los
import Verif.Model.Scatter
import Verif.Model.Lrprop
import Verif.Model.Prep
import Verif.Model.Stats
import Verif.Model.Runners
import Verif.Model.Terrain
import Verif.Conformance
import Verif.Lemmas.Basic
import Verif.Spec.Order
import Verif.Lemmas.Sort
import Verif.Props.C01
import Verif.Lemmas.Round
import Verif.Lemmas.Qerf
import Verif.Props.C02
import Verif.Lemmas.Qerfi
import Verif.Props.C04
import Verif.Lemmas.AvarState
import Verif.Lemmas.LrCore
import Verif.Lemmas.Frame
import Verif.Spec.History
import Verif.Props.C07
import Verif.Lemmas.AvarFrame
import Verif.Spec.Codes
import Verif.Props.C08
import Verif.Lemmas.AvarReal
import Verif.Lemmas.AvarGood
import Verif.Lemmas.Demo
import Verif.Props.C09
import Verif.Spec.Limits
import Verif.Props.C16
import Verif.Lemmas.DiffReal
import Verif.Lemmas.LineReal
import Verif.Lemmas.LosReal
import Verif.Lemmas.LosFit
import Verif.Lemmas.ScatReal
import Verif.Lemmas.Witness
import Verif.Spec.Sweep
import Verif.Lemmas.Sweep
import Verif.Lemmas.Fresh
import Verif.Props.C17
import Verif.Props.C20
import Verif.Spec.Fit
import Verif.Props.C19
import Verif.Spec.Recip
import Verif.Lemmas.Recip
import Verif.Props.C23
import Verif.Spec.Leaf
import Verif.Lemmas.LogBounds
import Verif.Props.C26
import Verif.Props.C29
import Verif.Props.C30
import Verif.Props.C33
import Verif.Props.C35
import Verif.Props.C37
import Verif.Props.C38
import Verif.Props.C39
import Verif.Props.C41
import Verif.Lemmas.ExRel
import Verif.Spec.Report
import Verif.Lemmas.Rows
import Verif.Lemmas.Leak
import Verif.Lemmas.P2P
import Verif.Lemmas.Area
import Verif.Lemmas.SmoothTotal
import Verif.Lemmas.RunTotal
import Verif.Lemmas.P2PTotal
import Verif.Props.C42
import Verif.Props.C48
import Verif.Lemmas.AreaTotal
import Verif.Spec.Grid
import Verif.Props.C45
import Verif.Lemmas.Pimter
import Verif.Lemmas.TwoPoint
import Verif.Props.C06
import Verif.Props.C47
import Verif.Lemmas.Percentile
import Verif.Spec.Decile
import Verif.Props.C49
import Verif.Spec.Normal
import Verif.Lemmas.Normal
import Verif.Lemmas.QerfResid
import Verif.Lemmas.QerfAccuracy
import Verif.Lemmas.QerfiCert
import Verif.Lemmas.QerfiAccuracy
import Verif.Props.C54
import Verif.Props.C55
import Verif.Spec.Quantile
import Verif.Spec.Reference
import Verif.Spec.Path
import Verif.Props.C56
import Verif.Props.C57
import Verif.Props.C58
import Verif.Spec.EndToEnd
import Verif.Props.C59
import Verif.Props.C60
import Verif.Props.C61
import Verif.Props.C62
import Verif.Props.C63
import Verif.Spec.Answered
import Verif.Props.C65
import Verif.Lemmas.SmoothSight
import Verif.Props.C66
import Verif.Spec.Usable
import Verif.Props.C67
import Verif.Lemmas.QuantileCont
import Verif.Props.C68
import Verif.Props.C69
import Verif.Props.C70
import Verif.Props.C71
import Verif.Lemmas.SmoothLink
import Verif.Lemmas.FlatLink
import Verif.Props.C72
import Verif.Props.C73
import Verif.Props.C74
import Verif.Props.C75
import Verif.Props.C76
import Verif.Props.C77
import Verif.Props.C78
import Verif.Props.C79
import Verif.Lemmas.Band
import Verif.Props.C80
import Verif.Props.C81
import Verif.Props.C82
import Verif.Props.C83
import Verif.Spec.NearHorizon
import Verif.Props.C84
import Verif.Props.C85
import Verif.Props.C86
import Verif.Props.C87
import Verif.Props.C88
import Verif.Lemmas.ZlsqRound
import Verif.Lemmas.DlthxRound
import Verif.Lemmas.DlthxRound2
import Verif.Props.C89
import Verif.Props.C90
import Verif.Model.Vis
import Verif.Spec.Plot
import Verif.Props.C91
import Verif.Props.C93
import Verif.Props.C94
import Verif.Props.C95
import Verif.Props.C96
import Verif.Props.C97
import Verif.Props.C98
import Verif.Props.C99
import Verif.Props.C92
import Verif.Props.C100
import Verif.Props.C101
import Verif.Props.C102
import Verif.Props.C103
import Verif.Props.C104
import Verif.Props.C105
import Verif.Props.C106
import Verif.Props.C107
import Verif.Props.C108
