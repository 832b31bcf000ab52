import Verif.Util
import Verif.Props.Supercell
import Verif.Props.AtomTypes
import Verif.Props.Structure
import Verif.Props.Elements
import Verif.Props.ElementTable
import Verif.Props.Displacements
import Verif.Props.Dynamics
import Verif.Props.Velocity
import Verif.Props.VelocityAccuracy
import Verif.Props.Averages
import Verif.Props.Memmap
import Verif.Props.Projection
import Verif.Props.Division
import Verif.Props.Correlation
import Verif.Props.Mem
import Verif.Props.FFTPower
import Verif.Props.Settings
import Verif.Props.Quasi
import Verif.Props.Process
import Verif.Props.Degeneracy
import Verif.Props.Fitting
import Verif.Props.Thermal
import Verif.Props.Parsers
import Verif.Props.Hdf5
import Verif.Props.Arrangement
import Verif.Props.GenerateCell
import Verif.Props.LammpsCell
import Verif.Props.LammpsBox
import Verif.Props.Inputs
import Verif.Props.Parameters
import Verif.Props.Xsf
import Verif.Props.PhonopyLink
import Verif.Props.Adp
import Verif.Props.TestTrajectory
import Verif.Props.Fitdata
import Verif.Model.LammpsLink
import Verif.Props.LammpsLink
import Verif.Model.Analysis
import Verif.Props.Analysis
import Verif.Model.Forces
import Verif.Props.Forces
import Verif.Model.Commensurate
import Verif.Props.Commensurate
import Verif.Model.Outputs
import Verif.Props.Outputs
import Verif.Model.Qha
import Verif.Props.Qha
import Verif.Model.Interactive
import Verif.Props.Interactive
import Verif.Model.OutcarStructure
import Verif.Props.OutcarStructure
import Verif.Model.FitObject
import Verif.Props.FitObject
import Verif.Model.Commands
import Verif.Props.Commands
import Verif.Props.NormalModes
import Verif.Props.Spectra
import Verif.Props.Oscillation
import Verif.Model.PlotLabels
import Verif.Props.PlotLabels
import Verif.Model.Text
import Verif.Props.Text
import Verif.Model.CurveFile
import Verif.Props.CurveFile
import Verif.Props.Loess
import Verif.Model.PoscarText
import Verif.Props.PoscarText
import Verif.Model.TrajectoryText
import Verif.Props.TrajectoryText
import Verif.Props.AsymWidth
import Verif.Props.AsymExact
import Verif.Model.OutcarText
import Verif.Props.OutcarText
import Verif.Model.InputText
import Verif.Props.InputText
import Verif.Model.LammpsText
import Verif.Props.LammpsText
import Verif.Model.Threads
import Verif.Props.Threads
import Verif.Model.LoadVc
import Verif.Props.LoadVc
import Verif.Model.Heap
import Verif.Props.Heap
import Verif.Model.HeapMem
import Verif.Props.HeapMem
import Verif.Model.Reports
import Verif.Props.Reports
import Verif.Model.QhaScript
import Verif.Props.QhaScript
import Verif.Model.FileRuns
import Verif.Props.FileRuns
import Verif.Model.FFTBackends
import Verif.Props.FFTBackends
import Verif.Props.Units
import Verif.Model.ModeDrawing
import Verif.Props.ModeDrawing
import Verif.Props.TextSyntax
import Verif.Model.Double
import Verif.Props.Double
import Verif.Props.DoublePieces
import Verif.Props.DoubleRange
import Verif.Model.DoubleTests
import Verif.Props.DoubleTests
import Verif.Props.HarmonicCore
import Verif.Props.TestCrystal
import Verif.Props.TestVelocity
import Verif.Model.MeshData
import Verif.Props.MeshData
import Verif.Model.Simpson
import Verif.Props.Simpson
import Verif.Model.Screen
import Verif.Props.Screen
import Verif.Model.PowerDos
import Verif.Props.PowerDos
import Verif.Model.SpectrumPlots
import Verif.Props.SpectrumPlots
import Verif.Props.Star
import Verif.Model.QhaPlots
import Verif.Props.QhaPlots
import Verif.Model.BandRun
import Verif.Props.BandRun
import Verif.Model.SeekPath
import Verif.Props.SeekPath
import Verif.Model.ProgressBar
import Verif.Props.ProgressBar
import Verif.Model.DisplacementText
import Verif.Props.DisplacementText
import Verif.Model.DoubleTime
import Verif.Props.DoubleTime
import Verif.Model.RfcRun
import Verif.Props.RfcRun
import Verif.Model.QhaBands
import Verif.Props.QhaBands
import Verif.Props.CropVelocity
import Verif.Model.Chain
import Verif.Props.Chain
import Verif.Props.ChainOrigin
import Verif.Props.Numbering
import Verif.Props.ChainWave
import Verif.Model.Orthonormal
import Verif.Props.Orthonormal
import Verif.Model.Sampling
import Verif.Props.Sampling
import Verif.Model.Versions
import Verif.Props.Versions
import Verif.Model.ChainFull
import Verif.Props.ChainFull
import Verif.Props.ChainSum
import Verif.Props.ChainNumbering
import Verif.Props.ChainAxes
import Verif.Model.Masses
import Verif.Props.Masses
import Verif.Props.Defined
import Verif.Props.DefinedQha
import Verif.Props.Setters
import Verif.Props.Coordinate
import Verif.Model.ProjectionText
import Verif.Props.ProjectionText
import Verif.Model.FitdataRun
import Verif.Props.TextStable
import Verif.Props.FitdataRun
import Verif.Model.XsfText
import Verif.Props.XsfText
import Verif.Props.MemArea
import Verif.Props.MemTemperature
import Verif.Props.TimeReversal
