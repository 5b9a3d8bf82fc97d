import Verif.Props.Bisect
import Verif.Props.Interp
import Verif.Props.Time
import Verif.Props.Intervals
import Verif.Props.Coefficients
import Verif.Props.Composed
import Verif.Props.ModelEval
import Verif.Props.ShEval
import Verif.Props.Series
import Verif.Props.Legendre
import Verif.Props.Harmonic
import Verif.Props.Geo
import Verif.Props.Rotation
import Verif.Props.FullEval
import Verif.Props.Degree
import Verif.Props.Arrays
import Verif.Props.ArrayFunctions
import Verif.Props.ComposedModel
import Verif.Props.FieldLines
import Verif.Props.Shapes
import Verif.Props.Mio
import Verif.Props.Parsers
import Verif.Props.Loaders
import Verif.Props.Sun
import Verif.Props.QdCoords
import Verif.Props.Qd
import Verif.Props.Mlt
import Verif.Props.SeriesArrays
import Verif.Props.SeriesRejects
import Verif.Props.ElemArrays
import Verif.Props.DateTime
import Verif.Props.TimedArrays
import Verif.Props.FourierArraysTimed
import Verif.Props.Laplace
import Verif.Props.DipoleEval
import Verif.Props.Mma
import Verif.Props.FloatTime
import Verif.Props.FloatInterp
import Verif.Props.FloatDateTime
import Verif.Props.Resources
import Verif.Model.FieldModel
import Verif.Model.FieldTree
import Verif.Model.DipoleModel
import Verif.Model.MmaField
import Verif.Model.Files
import Verif.Spec.Files
import Verif.Spec.Field
import Verif.Props.FieldModel
import Verif.Props.FieldTree
import Verif.Props.Files
import Verif.Props.DipoleModel
import Verif.Props.MmaField
import Verif.Model.MioField
import Verif.Props.MioField
import Verif.Model.ComposedField
import Verif.Props.ComposedField
import Verif.Model.MioFiles
import Verif.Props.MioFiles
import Verif.Model.MioCall
import Verif.Props.MioCall
import Verif.Model.QdApi
import Verif.Props.QdArrays
import Verif.Model.FloatSeries
import Verif.Lemmas.FloatSeries
import Verif.Props.FloatSeries
import Verif.Spec.RoundingError
import Verif.Model.FloatSums
import Verif.Lemmas.FloatSums
import Verif.Props.FloatSums
import Verif.Spec.Broadcast
import Verif.Model.VectorUtil
import Verif.Lemmas.Broadcast
import Verif.Props.VectorUtil
import Verif.Model.CoefInit
import Verif.Props.CoefInit
import Verif.Model.DipoleArrays
import Verif.Props.DipoleArrays
import Verif.Model.Objects
import Verif.Props.Objects
import Verif.Model.FloatFourier
import Verif.Lemmas.FloatFourier
import Verif.Props.FloatFourier
import Verif.Model.FloatLegendre
import Verif.Lemmas.FloatLegendre
import Verif.Props.FloatLegendre
import Verif.Props.FloatGradient
import Verif.Model.FloatEval
import Verif.Props.FloatEval
import Verif.Props.FloatScale
import Verif.Props.FloatMemory
