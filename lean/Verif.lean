import Verif.Lemmas.AngularSpectrum
import Verif.Lemmas.Atmos
import Verif.Lemmas.Attr
import Verif.Lemmas.Control
import Verif.Lemmas.Delay
import Verif.Lemmas.Exposure
import Verif.Lemmas.Interp
import Verif.Lemmas.Loop
import Verif.Lemmas.Los
import Verif.Lemmas.Mirror
import Verif.Lemmas.Par
import Verif.Lemmas.Parseval
import Verif.Lemmas.Persist
import Verif.Lemmas.Poisson
import Verif.Lemmas.Prog
import Verif.Lemmas.Py
import Verif.Lemmas.Stable
import Verif.Lemmas.Svd
import Verif.Lemmas.Sys
import Verif.Lemmas.SysA
import Verif.Lemmas.SysB
import Verif.Lemmas.SysC
import Verif.Lemmas.SysD
import Verif.Model.Archive
import Verif.Model.Atmos
import Verif.Model.AtmosStrength
import Verif.Model.Attr
import Verif.Model.Cli
import Verif.Model.Config
import Verif.Model.Control
import Verif.Model.Conv
import Verif.Model.Corr
import Verif.Model.Defaults
import Verif.Model.Delay
import Verif.Model.Display
import Verif.Model.Dump
import Verif.Model.Edit
import Verif.Model.Exposure
import Verif.Model.FftObj
import Verif.Model.Fibre
import Verif.Model.GuiQueue
import Verif.Model.GuiThreads
import Verif.Model.Influence
import Verif.Model.Interp
import Verif.Model.Interrupt
import Verif.Model.Kernels
import Verif.Model.Laser
import Verif.Model.LastFrame
import Verif.Model.Layout
import Verif.Model.Load
import Verif.Model.Loop
import Verif.Model.Los
import Verif.Model.Mirror
import Verif.Model.Nan
import Verif.Model.Noise
import Verif.Model.Par
import Verif.Model.Persist
import Verif.Model.Physical
import Verif.Model.Pinv
import Verif.Model.Plate
import Verif.Model.Pointing
import Verif.Model.Precomp
import Verif.Model.Prog
import Verif.Model.Psf
import Verif.Model.Py
import Verif.Model.Pyr
import Verif.Model.Report
import Verif.Model.Returned
import Verif.Model.Rows
import Verif.Model.RunLoop
import Verif.Model.Science
import Verif.Model.Seed
import Verif.Model.Sensors
import Verif.Model.Separate
import Verif.Model.ShExposure
import Verif.Model.Slopes
import Verif.Model.Slow
import Verif.Model.Spot
import Verif.Model.SubapScale
import Verif.Model.Subaps
import Verif.Model.Sys
import Verif.Model.Threads
import Verif.Model.Tools
import Verif.Model.Units
import Verif.Model.Vec
import Verif.Model.Velocity
import Verif.Model.Version
import Verif.Model.WfsFrame
import Verif.Model.Whole
import Verif.Model.Wind
import Verif.Props.Again
import Verif.Props.Archive
import Verif.Props.Atmos
import Verif.Props.AtmosStrength
import Verif.Props.Attr
import Verif.Props.BestGain
import Verif.Props.Cli
import Verif.Props.Colour
import Verif.Props.Config
import Verif.Props.Control
import Verif.Props.Conv
import Verif.Props.Converge
import Verif.Props.Corr
import Verif.Props.Defaults
import Verif.Props.Delay
import Verif.Props.Dirs
import Verif.Props.Display
import Verif.Props.Dump
import Verif.Props.Edit
import Verif.Props.Exposure
import Verif.Props.FftObj
import Verif.Props.Fibre
import Verif.Props.Field
import Verif.Props.Filtered
import Verif.Props.Follow
import Verif.Props.Group
import Verif.Props.GuiThreads
import Verif.Props.Header
import Verif.Props.Influence
import Verif.Props.Interp
import Verif.Props.Interrupt
import Verif.Props.Kernels
import Verif.Props.Laser
import Verif.Props.LastFrame
import Verif.Props.Later
import Verif.Props.Legacy
import Verif.Props.Load
import Verif.Props.Loop
import Verif.Props.Los
import Verif.Props.Margin
import Verif.Props.Mirror
import Verif.Props.Misfit
import Verif.Props.Mixed
import Verif.Props.Moving
import Verif.Props.Nan
import Verif.Props.Noise
import Verif.Props.Par
import Verif.Props.Persist
import Verif.Props.Physical
import Verif.Props.Pinv
import Verif.Props.Plate
import Verif.Props.Pointing
import Verif.Props.Precomp
import Verif.Props.Psf
import Verif.Props.Pyr
import Verif.Props.Ratios
import Verif.Props.Renumber
import Verif.Props.RenumberOptics
import Verif.Props.Report
import Verif.Props.Response
import Verif.Props.Returned
import Verif.Props.Rows
import Verif.Props.SameView
import Verif.Props.Science
import Verif.Props.ScreenFiles
import Verif.Props.Seed
import Verif.Props.Sensors
import Verif.Props.Separate
import Verif.Props.ShExposure
import Verif.Props.ShSensor
import Verif.Props.Slopes
import Verif.Props.Slow
import Verif.Props.SlowWhole
import Verif.Props.Speeds
import Verif.Props.Spot
import Verif.Props.Stable
import Verif.Props.SubapScale
import Verif.Props.Subaps
import Verif.Props.Superpose
import Verif.Props.Symmetry
import Verif.Props.Sys
import Verif.Props.Threads
import Verif.Props.Tomo
import Verif.Props.Tools
import Verif.Props.Units
import Verif.Props.Unused
import Verif.Props.UpDown
import Verif.Props.Uplink
import Verif.Props.Version
import Verif.Props.Vibration
import Verif.Props.Waterbed
import Verif.Props.Watch
import Verif.Props.WfsFrame
import Verif.Props.Whole
import Verif.Props.WholeExact
import Verif.Props.WholeFit
import Verif.Props.WholeNoise
import Verif.Props.WholeSci
import Verif.Props.Wind
import Verif.Spec.Archive
import Verif.Spec.Delay
import Verif.Spec.Load
import Verif.Spec.Sys
import Verif.Spec.Wind
