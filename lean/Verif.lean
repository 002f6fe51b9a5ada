import Verif.Props.Geometry
import Verif.Props.Cdf
import Verif.Props.Peaks
import Verif.Props.Glf
import Verif.Props.Deformation
import Verif.Props.Tct
import Verif.Props.Occupation
import Verif.Props.LeadMask
import Verif.Props.IdealCsd
import Verif.Props.Sensor
import Verif.Props.Simulation
import Verif.Props.Pipeline
import Verif.Props.EmptyPeaks
import Verif.Props.ScanSensor
import Verif.Props.Labels
import Verif.Props.SensorScan
import Verif.Props.Telegraph
import Verif.Props.DotJumps
import Verif.Props.DotJumpsScan
import Verif.Props.Blur
import Verif.Props.Samplers
import Verif.Props.GeometrySampler
import Verif.Props.Interdot
import Verif.Props.InterdotSampled
import Verif.Props.SensorSampler
import Verif.Props.SensorPlacement
import Verif.Props.SteepestPoint
import Verif.Props.ConfigSampler
import Verif.Props.IdealApi
import Verif.Props.DefaultConfigs
import Verif.Props.ScanSignal
import Verif.Props.Objects
import Verif.Props.DeformObjects
import Verif.Props.SimObjects
import Verif.Props.SimNoise
import Verif.Props.GlfShape
import Verif.Props.Plot
import Verif.Props.DefaultNoise
import Verif.Props.JumpBlur
import Verif.Props.SensorFunctions
import Verif.Props.RiseSignal
import Verif.Props.ExtendedConfig
import Verif.Props.ExtendedRegions
import Verif.Props.JumpScans
import Verif.Props.ChargeMonotone
import Verif.Props.SampledSim
import Verif.Props.SampledRegions
import Verif.Props.ScanAgree
import Verif.Props.FermiFilter
import Verif.Props.History
import Verif.Props.Reports
import Verif.Props.Parameters
import Verif.Props.JumpsDirect
import Verif.Props.Printing
import Verif.Props.ScanPipeline
import Verif.Props.TwoScales
import Verif.Props.PeakShape
import Verif.Props.PeakLabels
import Verif.Props.ScanRegions
import Verif.Props.SamplerLaws
import Verif.Props.TelegraphLaw
import Verif.Props.ActivationLaw
import Verif.Props.WhiteNoiseLaw
import Verif.Props.TelegraphSim
import Verif.Props.DefaultImages
import Verif.Props.Averaging
import Verif.Props.HeightLaw
import Verif.Props.JumpImage
import Verif.Props.ResetScan
import Verif.Props.ResetImage
import Verif.Props.Retuning
import Verif.Props.BurstSim
import Verif.Props.ImageDecision
import Verif.Props.NoiseOrder
import Verif.Props.SumNoise
import Verif.Props.GlfOffset
import Verif.Props.Reversed
