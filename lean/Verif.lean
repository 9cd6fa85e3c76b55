import Verif.Props.Alloc
import Verif.Props.Cube
import Verif.Props.Image
import Verif.Props.Band
import Verif.Spec.Gradient
import Verif.Props.Border
import Verif.Props.Padding
import Verif.Props.DataType
import Verif.Props.Vector
import Verif.Props.Color
import Verif.Props.Bmp
import Verif.Props.Math
import Verif.Props.DftSize
import Verif.Props.Matrix
import Verif.Props.Invert
import Verif.Props.Integral
import Verif.Props.Gradient
import Verif.Props.Gaussian
import Verif.Props.Filter2D
import Verif.Props.Morphology
import Verif.Props.Draw
import Verif.Proof.DrawSlope
import Verif.Props.DrawSlope
import Verif.Props.HisEqualization
import Verif.Props.Statistics
import Verif.Props.Cluster
import Verif.Props.Separable
import Verif.Props.Header
import Verif.Props.HyMat
import Verif.Props.Satellite
import Verif.Props.Spectral
import Verif.Props.Radiometric
import Verif.Props.LinearTension
import Verif.Props.Normalize
import Verif.Props.NormalizeSum
import Verif.Props.Pyramid
import Verif.Props.Rotate
import Verif.Props.Cem
import Verif.Props.Decomp
import Verif.Props.Accuracy
import Verif.Props.AccuracyStat
import Verif.Props.ContrastColour
import Verif.Props.AccuracyFilter
import Verif.Model.Atof
import Verif.Spec.Numeral
import Verif.Proof.Atof
import Verif.Proof.AtofError
import Verif.Props.Atof
import Verif.Model.EdgeEnergy
import Verif.Spec.EdgeEnergy
import Verif.Proof.FloatAdd
import Verif.Props.FloatAdd
import Verif.Proof.EdgeEnergy
import Verif.Props.EdgeEnergy
import Verif.Model.Dft
import Verif.Spec.Dft
import Verif.Proof.Dft
import Verif.Proof.DftError
import Verif.Proof.IdftError
import Verif.Proof.DftInverse
import Verif.Proof.SpecError
import Verif.Proof.Magnitude
import Verif.Props.Dft
import Verif.Props.Idft
import Verif.Props.Spectrum
import Verif.Props.Magnitude
import Verif.Props.SpectrumStat
import Verif.Model.Otsu
import Verif.Spec.Otsu
import Verif.Proof.Otsu
import Verif.Props.Otsu
import Verif.Model.Shape
import Verif.Spec.Shape
import Verif.Proof.Approx
import Verif.Proof.Shape
import Verif.Proof.ShapeRun
import Verif.Proof.ShapeMove
import Verif.Props.Shape
import Verif.Model.Wavelet
import Verif.Spec.Wavelet
import Verif.Proof.Wavelet
import Verif.Props.Wavelet
import Verif.Model.Pca
import Verif.Spec.Pca
import Verif.Proof.Pca
import Verif.Props.Pca
import Verif.Model.Stubs
import Verif.Props.Stubs
import Verif.Spec.Client
import Verif.Model.Client
import Verif.Proof.Client
import Verif.Props.Client
import Verif.Spec.Session
import Verif.Model.Session
import Verif.Proof.KeepsOracles
import Verif.Proof.SessionImages
import Verif.Proof.Session
import Verif.Props.Session
import Verif.Props.Work
import Verif.Model.History
import Verif.Spec.History
import Verif.Props.History
import Verif.Model.HyHeader
import Verif.Spec.HyHeader
import Verif.Proof.HyHeader
import Verif.Proof.HyOpen
import Verif.Props.HyHeader
import Verif.Model.Files
import Verif.Spec.Files
import Verif.Props.Files
import Verif.Spec.HeaderLines
import Verif.Proof.HeaderLines
import Verif.Props.HeaderLines
import Verif.Model.SimpleMatFile
import Verif.Model.ShowInfo
import Verif.Model.Wavedec
import Verif.Spec.HyWaves
import Verif.Spec.ShowInfo
import Verif.Proof.HyWaves
import Verif.Props.HyWaves
import Verif.Props.SimpleMatFile
import Verif.Props.ShowInfo
import Verif.Props.Wavedec
import Verif.Spec.ClientFiles
import Verif.Spec.Interrupt
import Verif.Model.ClientFiles
import Verif.Model.Interrupt
import Verif.Proof.ClientFiles
import Verif.Proof.Interrupt
import Verif.Props.ClientFiles
import Verif.Props.Interrupt
import Verif.Props.Correlation
import Verif.Props.ByteAdd
import Verif.Props.Splicing
