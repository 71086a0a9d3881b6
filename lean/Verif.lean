import Verif.Lemmas.Accept
import Verif.Lemmas.Apodizing
import Verif.Lemmas.Autocorr
import Verif.Lemmas.DvInterp
import Verif.Lemmas.Fourier
import Verif.Lemmas.GenField
import Verif.Lemmas.GenField3
import Verif.Lemmas.Genus
import Verif.Lemmas.Hermite
import Verif.Lemmas.L2
import Verif.Lemmas.Lifecycle
import Verif.Lemmas.LifecycleCerts
import Verif.Lemmas.LifecycleFlags
import Verif.Lemmas.LifecycleTables
import Verif.Lemmas.Loop
import Verif.Lemmas.Lsq
import Verif.Lemmas.Lsq4
import Verif.Lemmas.Minkowski
import Verif.Lemmas.NegType
import Verif.Lemmas.Odr
import Verif.Lemmas.PSpec
import Verif.Lemmas.PixelMap
import Verif.Lemmas.PlawFit
import Verif.Lemmas.Psds
import Verif.Lemmas.ResidBoot
import Verif.Lemmas.Rfft
import Verif.Lemmas.Scf
import Verif.Lemmas.Slices
import Verif.Lemmas.Vcs
import Verif.Model.Aliasing
import Verif.Model.Apodizing
import Verif.Model.BaseStat
import Verif.Model.BayesFit
import Verif.Model.BeamPspec
import Verif.Model.Bispec
import Verif.Model.BreakFit
import Verif.Model.BrokenFit
import Verif.Model.Constructors
import Verif.Model.Cramer
import Verif.Model.CramerMetric
import Verif.Model.CubeAxes
import Verif.Model.DeltaVariance
import Verif.Model.Dendro
import Verif.Model.DendroHist
import Verif.Model.DistanceAccept
import Verif.Model.DistanceFigures
import Verif.Model.DistanceInit
import Verif.Model.Distances
import Verif.Model.DistribPlots
import Verif.Model.DvInterp
import Verif.Model.DvKernels
import Verif.Model.EllipFit
import Verif.Model.EllipPlaw
import Verif.Model.Ellipse
import Verif.Model.EllipseBoot
import Verif.Model.FftOptions
import Verif.Model.FieldAnalysis
import Verif.Model.Figures
import Verif.Model.FitPlots
import Verif.Model.FittingUtils
import Verif.Model.GenField
import Verif.Model.Genus
import Verif.Model.GenusInit
import Verif.Model.HighMoments
import Verif.Model.Io
import Verif.Model.Lifecycle
import Verif.Model.LifecycleCounts
import Verif.Model.LifecycleScales
import Verif.Model.LifecycleSpectra
import Verif.Model.LmSeg
import Verif.Model.LmSegFit
import Verif.Model.MakeCube
import Verif.Model.MomentErrs
import Verif.Model.MomentsDist
import Verif.Model.MomentsIo
import Verif.Model.Mvc
import Verif.Model.MvcWeights
import Verif.Model.PSpec
import Verif.Model.Pca
import Verif.Model.PcaFit
import Verif.Model.Pdf
import Verif.Model.PdfDistance
import Verif.Model.PdfFit
import Verif.Model.PlawFit
import Verif.Model.PlotOptions
import Verif.Model.Psds
import Verif.Model.PsdsStd
import Verif.Model.RandomState
import Verif.Model.Regrid
import Verif.Model.ResidBoot
import Verif.Model.Results
import Verif.Model.RfftToFft
import Verif.Model.RunCalls
import Verif.Model.SaveResults
import Verif.Model.Scf
import Verif.Model.ScfSpectrum
import Verif.Model.Smoothing
import Verif.Model.SpatialWidth
import Verif.Model.SpecWidth
import Verif.Model.StatsUtils
import Verif.Model.ThreeDPspec
import Verif.Model.ThreeDToTwoD
import Verif.Model.Tsallis
import Verif.Model.TsallisFit
import Verif.Model.Wcs
import Verif.Np.Core
import Verif.Np.Dft
import Verif.Np.Histogram
import Verif.Np.Nan
import Verif.Np.Ranges
import Verif.Np.Reduce
import Verif.Props.C01
import Verif.Props.C02
import Verif.Props.C03
import Verif.Props.C04
import Verif.Props.C05
import Verif.Props.C06
import Verif.Props.C07
import Verif.Props.C08
import Verif.Props.C09
import Verif.Props.C10
import Verif.Props.C100
import Verif.Props.C101
import Verif.Props.C102
import Verif.Props.C103
import Verif.Props.C104
import Verif.Props.C105
import Verif.Props.C106
import Verif.Props.C107
import Verif.Props.C108
import Verif.Props.C109
import Verif.Props.C11
import Verif.Props.C110
import Verif.Props.C111
import Verif.Props.C112
import Verif.Props.C113
import Verif.Props.C114
import Verif.Props.C115
import Verif.Props.C116
import Verif.Props.C117
import Verif.Props.C118
import Verif.Props.C118Dist
import Verif.Props.C118Frac
import Verif.Props.C118Pca
import Verif.Props.C118Scf
import Verif.Props.C119
import Verif.Props.C12
import Verif.Props.C120
import Verif.Props.C121
import Verif.Props.C122
import Verif.Props.C122Cube
import Verif.Props.C122Pspec
import Verif.Props.C122Wave
import Verif.Props.C123
import Verif.Props.C124
import Verif.Props.C124Cube
import Verif.Props.C124Dv
import Verif.Props.C124Mvc
import Verif.Props.C124Pdf
import Verif.Props.C124Pspec
import Verif.Props.C124Scf
import Verif.Props.C124Stat
import Verif.Props.C13
import Verif.Props.C14
import Verif.Props.C15
import Verif.Props.C16
import Verif.Props.C17
import Verif.Props.C18
import Verif.Props.C19
import Verif.Props.C20
import Verif.Props.C21
import Verif.Props.C22
import Verif.Props.C23
import Verif.Props.C24
import Verif.Props.C25
import Verif.Props.C26
import Verif.Props.C27
import Verif.Props.C28
import Verif.Props.C29
import Verif.Props.C30
import Verif.Props.C31
import Verif.Props.C32
import Verif.Props.C33
import Verif.Props.C34
import Verif.Props.C35
import Verif.Props.C36
import Verif.Props.C37
import Verif.Props.C38
import Verif.Props.C39
import Verif.Props.C40
import Verif.Props.C41
import Verif.Props.C42
import Verif.Props.C43
import Verif.Props.C44
import Verif.Props.C45
import Verif.Props.C46
import Verif.Props.C47
import Verif.Props.C48
import Verif.Props.C49
import Verif.Props.C50
import Verif.Props.C51
import Verif.Props.C52
import Verif.Props.C53
import Verif.Props.C54
import Verif.Props.C55
import Verif.Props.C56
import Verif.Props.C57
import Verif.Props.C58
import Verif.Props.C59
import Verif.Props.C60
import Verif.Props.C61
import Verif.Props.C62
import Verif.Props.C63
import Verif.Props.C64
import Verif.Props.C65
import Verif.Props.C66
import Verif.Props.C67
import Verif.Props.C68
import Verif.Props.C69
import Verif.Props.C70
import Verif.Props.C71
import Verif.Props.C72
import Verif.Props.C73
import Verif.Props.C74
import Verif.Props.C75
import Verif.Props.C76
import Verif.Props.C77
import Verif.Props.C78
import Verif.Props.C79
import Verif.Props.C80
import Verif.Props.C81
import Verif.Props.C82
import Verif.Props.C83
import Verif.Props.C84
import Verif.Props.C85
import Verif.Props.C86
import Verif.Props.C87
import Verif.Props.C88
import Verif.Props.C89
import Verif.Props.C90
import Verif.Props.C91
import Verif.Props.C92
import Verif.Props.C93
import Verif.Props.C94
import Verif.Props.C95
import Verif.Props.C96
import Verif.Props.C97
import Verif.Props.C98
import Verif.Props.C99
import Verif.Spec.Accept
import Verif.Spec.Boot
import Verif.Spec.FftOptions
import Verif.Spec.Fourier
import Verif.Spec.Lifecycle
import Verif.Spec.LifecycleTables
import Verif.Spec.Lsq
import Verif.Spec.Lsq4
import Verif.Spec.Odr
import Verif.Spec.Radial
import Verif.Spec.Scf
import Verif.Spec.Window
