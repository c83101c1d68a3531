import Verif.Model.Capi
import Verif.Model.Mxcsr
import Verif.Proofs.Samples
import Verif.Proofs.Interp
import Verif.Proofs.Process
import Verif.Proofs.Float
import Verif.Proofs.FloatOps
import Verif.Proofs.Percentile
import Verif.Proofs.Range
import Verif.Proofs.Hist
import Verif.Proofs.Gating
import Verif.Proofs.FilterCore
import Verif.Proofs.Config
import Verif.Proofs.Add
import Verif.Proofs.Good
import Verif.Proofs.Step
import Verif.Proofs.Safe
import Verif.Spec.Demo
import Verif.Props.C01_C03
import Verif.Props.C01_Flags
import Verif.Props.C04_C07
import Verif.Proofs.Layout
import Verif.Proofs.Query
import Verif.Proofs.Tick
import Verif.Proofs.Grown
import Verif.Spec.Meter
import Verif.Proofs.Meter
import Verif.Proofs.Tracks
import Verif.Proofs.Feed
import Verif.Proofs.Start
import Verif.Props.C08
import Verif.Props.C09
import Verif.Props.C10
import Verif.Props.C13_C15
import Verif.Props.C16_C18
import Verif.Props.C22_C23
import Verif.Props.C41_C45
import Verif.Props.C42
import Verif.Props.C48_C49
import Verif.Props.C50
import Verif.Proofs.PeakFloat
import Verif.Proofs.PeakScan
import Verif.Proofs.Pieces
import Verif.Proofs.Peaks
import Verif.Spec.Peaks
import Verif.Proofs.Level
import Verif.Props.C19_C21
import Verif.Props.C24
import Verif.Spec.Libm
import Verif.Proofs.Values
import Verif.Proofs.Events
import Verif.Proofs.Same
import Verif.Proofs.Convert
import Verif.Props.C11
import Verif.Props.C12
import Verif.Props.C17
import Verif.Proofs.Table
import Verif.Proofs.TableReal
import Verif.Spec.Real
import Verif.Spec.RealGate
import Verif.Spec.Gate
import Verif.Proofs.FloatSum
import Verif.Proofs.Runs
import Verif.Props.C30
import Verif.Props.C34
import Verif.Props.C32
import Verif.Props.C35
import Verif.Spec.Bins
import Verif.Spec.Exact
import Verif.Proofs.Bins
import Verif.Proofs.Orders
import Verif.Props.C33
import Verif.Props.C31
import Verif.Proofs.PercentileExact
import Verif.Proofs.FloatMono
import Verif.Props.C51
import Verif.Spec.Range
import Verif.Props.C37
import Verif.Props.C38
import Verif.Props.C39
import Verif.Proofs.Couple
import Verif.Proofs.CouplePeak
import Verif.Proofs.CoupleAll
import Verif.Proofs.Opposite
import Verif.Props.C25_C26
import Verif.Props.C27_C29
import Verif.Props.C43
import Verif.Props.C44
import Verif.Props.C47
import Verif.Props.C46
import Verif.Proofs.FloatErr
import Verif.Proofs.Near
import Verif.Proofs.Accuracy
import Verif.Props.C52
import Verif.Proofs.Numeric
import Verif.Props.C53
import Verif.Props.C54
import Verif.Spec.Sinc
import Verif.Proofs.Kernel
import Verif.Proofs.Approx
import Verif.Props.C55
import Verif.Props.C56
import Verif.Proofs.Noise
import Verif.Proofs.Units
import Verif.Proofs.CoefErr
import Verif.Proofs.FilterErr
import Verif.Props.C57
import Verif.Proofs.GateErr
import Verif.Props.C58
import Verif.Spec.RealRange
import Verif.Proofs.Mixed
import Verif.Proofs.Rough
import Verif.Props.C59
import Verif.Props.C60
import Verif.Spec.Soft
import Verif.Proofs.Soft
import Verif.Proofs.SoftErr
import Verif.Props.C61
import Verif.Model.CRef
import Verif.Spec.CRef
import Verif.Proofs.CRef
import Verif.Proofs.CRefFloat
import Verif.Props.C62
import Verif.Proofs.CRefHist
import Verif.Props.C63
import Verif.Proofs.CRefCoeff
import Verif.Proofs.CRefTaps
import Verif.Proofs.CRefPeak
import Verif.Proofs.CRefConv
import Verif.Proofs.CRefTrack
import Verif.Props.C64
import Verif.Model.Heap
import Verif.Props.C65
import Verif.Model.Examples
import Verif.Proofs.ScaleSample
import Verif.Proofs.ScaleNear
import Verif.Props.C66
import Verif.Model.Generator
import Verif.Props.C67
import Verif.Spec.Session
import Verif.Proofs.Session
import Verif.Props.C68
import Verif.Spec.Programme
import Verif.Proofs.Programme
import Verif.Props.C69
import Verif.Proofs.Album
import Verif.Props.C70
import Verif.Proofs.Onset
import Verif.Proofs.Tone1k
import Verif.Proofs.Profile
import Verif.Props.C71
import Verif.Spec.Tones
import Verif.Proofs.Tones
import Verif.Proofs.ToneGate
import Verif.Proofs.ToneLoudness
import Verif.Proofs.ToneFile
import Verif.Props.C72
import Verif.Proofs.ToneRange
import Verif.Props.C73
import Verif.Spec.Taper
import Verif.Props.C74
import Verif.Proofs.ToneBins
import Verif.Spec.File24
import Verif.Proofs.Long
import Verif.Props.C75
import Verif.Proofs.Settle
import Verif.Proofs.Settle48
import Verif.Proofs.FineProfile
import Verif.Spec.Steps
import Verif.Proofs.Steps
import Verif.Proofs.StepFile
import Verif.Props.C76
import Verif.Proofs.AtMost
import Verif.Proofs.Bursts
import Verif.Props.C77
import Verif.Proofs.RobustGate
import Verif.Props.C78
