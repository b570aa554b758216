import Verif.Model.Py
import Verif.Model.Utils1D
import Verif.Model.Core1D
import Verif.Model.Backend1D
import Verif.Model.FilterBank1D
import Verif.Model.Torch1D
import Verif.Model.Frontend1D
import Verif.Model.Object1D
import Verif.Spec.Signal
import Verif.Lemmas.Sizes1D
import Verif.Lemmas.DFT
import Verif.Lemmas.Sim
import Verif.Lemmas.Backend1D
import Verif.Lemmas.Py
import Verif.Lemmas.Levels
import Verif.Lemmas.Core1D
import Verif.Lemmas.Labels1D
import Verif.Lemmas.NpOps
import Verif.Lemmas.Covariance1D
import Verif.Lemmas.Torch1D
import Verif.Lemmas.Front1D
import Verif.Lemmas.ShapeFront
import Verif.Lemmas.Example1D
import Verif.Lemmas.Paths1D
import Verif.Spec.Scattering1D
import Verif.Props.Sizes1D
import Verif.Props.Fourier1D
import Verif.Props.Paths1D
import Verif.Props.ClosedForm1D
import Verif.Props.Laws1D
import Verif.Props.Frontend1D
import Verif.Lemmas.Anden
import Verif.Props.FilterBank1D
import Verif.Lemmas.Morlet
import Verif.Lemmas.MorletNonzero
import Verif.Lemmas.Object1D
import Verif.Props.NoError1D
import Verif.Props.Morlet1D
import Verif.Props.ClosedObject1D
import Verif.Props.Meta1D
import Verif.Props.Support1D
import Verif.Model.Core2D
import Verif.Model.Backend2D
import Verif.Model.FilterBank2D
import Verif.Model.Object2D
import Verif.Model.Torch2D
import Verif.Spec.Image
import Verif.Lemmas.Core2D
import Verif.Lemmas.DFT2
import Verif.Lemmas.NpOps2D
import Verif.Lemmas.Covariance2D
import Verif.Lemmas.Torch2D
import Verif.Props.Sizes2D
import Verif.Props.Channels2D
import Verif.Props.Laws2D
import Verif.Props.Torch2D
import Verif.Props.Crop1D
import Verif.Model.Core3D
import Verif.Model.Backend3D
import Verif.Model.FilterBank3D
import Verif.Model.Object3D
import Verif.Spec.Volume
import Verif.Lemmas.Core3D
import Verif.Lemmas.Vol3D
import Verif.Lemmas.Torch3D
import Verif.Lemmas.Filters3D
import Verif.Lemmas.Norm3D
import Verif.Props.Scattering3D
import Verif.Props.Filters3D
import Verif.Model.CoreJTFS
import Verif.Model.BackendJTFS
import Verif.Model.ObjectJTFS
import Verif.Lemmas.CoreJTFS
import Verif.Lemmas.MetaJTFS
import Verif.Lemmas.ObjectJTFS
import Verif.Lemmas.NpJTFS
import Verif.Props.PathsJTFS
import Verif.Spec.JTFS
import Verif.Props.ClosedFormJTFS
import Verif.Lemmas.NoErrorJTFS
import Verif.Lemmas.FitsJTFS
import Verif.Props.ObjectJTFS
import Verif.Props.StrideJTFS
import Verif.Model.Select
import Verif.Props.Select
import Verif.Model.Kernels
import Verif.Props.Kernels
import Verif.Model.Buffers
import Verif.Props.Buffers
import Verif.Model.NdArray
import Verif.Lemmas.NdArray
import Verif.Spec.Array
import Verif.Props.NdArray
import Verif.Model.NdArray2D
import Verif.Lemmas.NdArray2D
import Verif.Props.NdArray2D
import Verif.Model.Dtype
import Verif.Lemmas.Dtype
import Verif.Props.Dtype
import Verif.Model.Keras
import Verif.Props.Keras
import Verif.Model.NdArray3D
import Verif.Props.NdArray3D
import Verif.Model.TorchJTFS
import Verif.Lemmas.SimJTFS
import Verif.Lemmas.TorchJTFS
import Verif.Props.TorchJTFS
import Verif.Lemmas.ScaleJTFS
import Verif.Props.LawsJTFS
import Verif.Lemmas.RollJTFS
import Verif.Props.RollJTFS
import Verif.Lemmas.Transpose2D
import Verif.Props.Transpose2D
import Verif.Lemmas.GaussSums
import Verif.Lemmas.AxisResponse2D
import Verif.Props.TransposeWitness2D
import Verif.Lemmas.Reversal1D
import Verif.Props.Reversal1D
import Verif.Props.MaxOrder
import Verif.Props.Morlet2D
import Verif.Spec.Filters1D
import Verif.Props.Filters1D
import Verif.Model.NdJTFS
import Verif.Lemmas.NdJTFS
import Verif.Props.NdJTFS
import Verif.Model.MetaJTFS
import Verif.Props.MetaJTFS
import Verif.Model.DtypeJTFS
import Verif.Props.DtypeJTFS
import Verif.Lemmas.Reflect2D
import Verif.Props.Reflect2D
import Verif.Props.Reflect3D
import Verif.Props.Stability1D
import Verif.Props.Returns1D
import Verif.Props.Returns2D
import Verif.Props.Returns3D
import Verif.Model.Classes
import Verif.Model.Calls
import Verif.Props.Linearisation
import Verif.Props.Dispatch
import Verif.Props.Calls
import Verif.Lemmas.Energy2D
import Verif.Lemmas.GaussSum
import Verif.Lemmas.MirrorSum
import Verif.Props.Stability2D
import Verif.Props.OutputSize
import Verif.Props.StabilityJTFS
import Verif.Props.Stability3D
import Verif.Props.OrderArg
import Verif.Props.Rejections
import Verif.Props.PathsObject1D
import Verif.Props.Instances1D
import Verif.Props.Instances2D
import Verif.Props.Instances3D
import Verif.Props.InstancesJTFS
import Verif.Props.FiltersJTFS
import Verif.Props.Layout
import Verif.Model.Kind
import Verif.Lemmas.Hom
import Verif.Props.Kind
import Verif.Model.Attributes
import Verif.Props.Attributes
import Verif.Model.Deprecated
import Verif.Props.Deprecated
import Verif.Model.Params
import Verif.Props.Params
import Verif.Props.Nesting
import Verif.Props.Constructor
import Verif.Props.GlobalAverage
import Verif.Props.Algebra
import Verif.Props.Energy1D
import Verif.Lemmas.Decimate1D
import Verif.Lemmas.Network1D
import Verif.Lemmas.BankSum
import Verif.Lemmas.MorletAlias
import Verif.Lemmas.BankBound
import Verif.Props.Contractive1D
import Verif.Props.OutputKinds1D
import Verif.Props.Coverage1D
import Verif.Model.InputChecks
import Verif.Props.InputChecks
import Verif.Props.Averages1D
import Verif.Props.Shift2D
import Verif.Props.Averages2D
import Verif.Props.FloatF
import Verif.Props.FloatInt
import Verif.Props.AveragesJTFS
import Verif.Props.Rounded1D
import Verif.Props.Sharp1D
import Verif.Props.Rounded2D
import Verif.Props.Rounded3D
import Verif.Props.Rebuild
import Verif.Model.RoundedJTFS
import Verif.Lemmas.RoundedJTFS
import Verif.Props.RoundedJTFS
import Verif.Lemmas.RoundedSimJTFS
import Verif.Props.RoundedErrJTFS
import Verif.Props.OutputKindsB1D
import Verif.Model.NegativeJ
import Verif.Props.NegativeJ
import Verif.Props.NegativeJImages
import Verif.Props.LipschitzJTFS
import Verif.Props.SharpJTFS
import Verif.Props.ShiftJTFS
import Verif.Model.NegativeJfr
import Verif.Props.NegativeJfr
import Verif.Model.AnyShape
import Verif.Props.AnyShape
import Verif.Props.TorchBounds
