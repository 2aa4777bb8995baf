import Verif.Lemmas.Float64
import Verif.Lemmas.Gaps
import Verif.Lemmas.IoBase
import Verif.Lemmas.Misc
import Verif.Lemmas.Nortek
import Verif.Lemmas.Orient
import Verif.Lemmas.Psd
import Verif.Lemmas.Rotate
import Verif.Lemmas.RotateDecl
import Verif.Lemmas.RotateGaps
import Verif.Lemmas.RotatePath
import Verif.Lemmas.RotateSteps
import Verif.Lemmas.RotateTotal
import Verif.Lemmas.SfSep
import Verif.Lemmas.Time
import Verif.Model.Ad2cp
import Verif.Model.Ad2cpFile
import Verif.Model.Ad2cpHead
import Verif.Model.Ad2cpIndexFile
import Verif.Model.Ad2cpMore
import Verif.Model.Ad2cpRead
import Verif.Model.Ad2cpReorg
import Verif.Model.Ad2cpSci
import Verif.Model.Ad2cpSplit
import Verif.Model.AdAlt
import Verif.Model.AdEarth
import Verif.Model.AdEnv
import Verif.Model.AdFile
import Verif.Model.AdVars
import Verif.Model.AdvCsd
import Verif.Model.AdvDissip
import Verif.Model.AttrIo
import Verif.Model.BinAxis
import Verif.Model.Binned
import Verif.Model.Clean
import Verif.Model.CleanDs
import Verif.Model.Clock
import Verif.Model.Collapse
import Verif.Model.Coords
import Verif.Model.CorrFrames
import Verif.Model.Cov
import Verif.Model.CreateDs
import Verif.Model.Csd
import Verif.Model.CsdNan
import Verif.Model.Despike
import Verif.Model.DetrendNd
import Verif.Model.DoAvg
import Verif.Model.FillGaps
import Verif.Model.Float64
import Verif.Model.Gaps
import Verif.Model.IoBase
import Verif.Model.Labels
import Verif.Model.MatFile
import Verif.Model.MedOrient
import Verif.Model.Motion
import Verif.Model.NkEarth
import Verif.Model.NkFile
import Verif.Model.NoList
import Verif.Model.NoListSet
import Verif.Model.Nortek
import Verif.Model.NortekFields
import Verif.Model.NortekInit
import Verif.Model.NortekSci
import Verif.Model.NortekSize
import Verif.Model.Orient
import Verif.Model.Psd
import Verif.Model.PsdNan
import Verif.Model.PsdQuasi
import Verif.Model.Py
import Verif.Model.Rdi
import Verif.Model.RdiCfg
import Verif.Model.RdiEarth
import Verif.Model.RdiInit
import Verif.Model.RdiMisc
import Verif.Model.RdiNav
import Verif.Model.RdiSurf
import Verif.Model.RdiVals
import Verif.Model.Repr
import Verif.Model.RotF
import Verif.Model.RotNames
import Verif.Model.Rotate
import Verif.Model.RotateGaps
import Verif.Model.SaveCaller
import Verif.Model.SaveEnc
import Verif.Model.SfCall
import Verif.Model.Single
import Verif.Model.StressCall
import Verif.Model.SurfFilt
import Verif.Model.Time
import Verif.Model.TimeBin
import Verif.Model.TimeF
import Verif.Model.TimeMore
import Verif.Model.TkeBeam
import Verif.Model.Turb
import Verif.Model.TurbAcc
import Verif.Model.UserData
import Verif.Model.VarBin
import Verif.Model.VecFile
import Verif.Model.VelPsd
import Verif.Model.VnoFile
import Verif.Props.Ad2cp
import Verif.Props.Ad2cpAlt
import Verif.Props.Ad2cpBits
import Verif.Props.Ad2cpConfig
import Verif.Props.Ad2cpCrop
import Verif.Props.Ad2cpFile
import Verif.Props.Ad2cpHead
import Verif.Props.Ad2cpIndex
import Verif.Props.Ad2cpIndexFile
import Verif.Props.Ad2cpRead
import Verif.Props.Ad2cpReorg
import Verif.Props.Ad2cpRestart
import Verif.Props.Ad2cpSci
import Verif.Props.Ad2cpSkip
import Verif.Props.Ad2cpSplit
import Verif.Props.Ad2cpSync
import Verif.Props.Ad2cpTime
import Verif.Props.AdAlt
import Verif.Props.AdEarth
import Verif.Props.AdEnv
import Verif.Props.AdFile
import Verif.Props.AdVars
import Verif.Props.AdpClean
import Verif.Props.AdvCsd
import Verif.Props.AdvDissip
import Verif.Props.Angles
import Verif.Props.AttrIo
import Verif.Props.AvgRotate
import Verif.Props.BeamStress
import Verif.Props.BinAxis
import Verif.Props.BinStats
import Verif.Props.Binned
import Verif.Props.Clean
import Verif.Props.CleanDs
import Verif.Props.Clock
import Verif.Props.Collapse
import Verif.Props.Coords
import Verif.Props.CorrFrames
import Verif.Props.Cov
import Verif.Props.CreateBeam
import Verif.Props.CreateDs
import Verif.Props.Csd
import Verif.Props.CsdNan
import Verif.Props.DeclGaps
import Verif.Props.Despike
import Verif.Props.Detrend
import Verif.Props.DetrendNd
import Verif.Props.Dissip
import Verif.Props.DoAvg
import Verif.Props.Ends
import Verif.Props.FillGaps
import Verif.Props.FiveTilt
import Verif.Props.FrameInv
import Verif.Props.Gaps
import Verif.Props.HeadGaps
import Verif.Props.Idem
import Verif.Props.IoBase
import Verif.Props.IoComplex
import Verif.Props.Labels
import Verif.Props.MatFile
import Verif.Props.MedOrient
import Verif.Props.Misc
import Verif.Props.Motion
import Verif.Props.MotionAcc
import Verif.Props.MotionSum
import Verif.Props.NkEarth
import Verif.Props.NkFile
import Verif.Props.NoList
import Verif.Props.NoListSet
import Verif.Props.Nortek
import Verif.Props.NortekCount
import Verif.Props.NortekFields
import Verif.Props.NortekInit
import Verif.Props.NortekSci
import Verif.Props.NortekSize
import Verif.Props.Orient
import Verif.Props.Pieces
import Verif.Props.PiecesAdp
import Verif.Props.PiecesBeam
import Verif.Props.PiecesCov
import Verif.Props.PiecesCsd
import Verif.Props.Psd
import Verif.Props.PsdMore
import Verif.Props.PsdNan
import Verif.Props.PsdQuasi
import Verif.Props.Rdi
import Verif.Props.RdiAbsent
import Verif.Props.RdiCells
import Verif.Props.RdiCfg
import Verif.Props.RdiCount
import Verif.Props.RdiEarth
import Verif.Props.RdiEnds
import Verif.Props.RdiInit
import Verif.Props.RdiMisc
import Verif.Props.RdiNav
import Verif.Props.RdiResync
import Verif.Props.RdiSecond
import Verif.Props.RdiSurf
import Verif.Props.RdiVals
import Verif.Props.RdiWinBottom
import Verif.Props.RdiWinriver
import Verif.Props.Repr
import Verif.Props.RotF
import Verif.Props.RotNames
import Verif.Props.Rotate
import Verif.Props.RotateGaps
import Verif.Props.RotateMore
import Verif.Props.SaveCaller
import Verif.Props.SaveEnc
import Verif.Props.SfCall
import Verif.Props.Shear
import Verif.Props.Single
import Verif.Props.Steady
import Verif.Props.StressCall
import Verif.Props.SurfFilt
import Verif.Props.TiTrend
import Verif.Props.Tilt
import Verif.Props.Time
import Verif.Props.TimeBin
import Verif.Props.TimeF
import Verif.Props.TimeMore
import Verif.Props.TkeBeam
import Verif.Props.Turb
import Verif.Props.TurbAcc
import Verif.Props.TurbMore
import Verif.Props.Units
import Verif.Props.UnitsBin
import Verif.Props.Unread
import Verif.Props.UserData
import Verif.Props.VarBin
import Verif.Props.VecBurst
import Verif.Props.VecFile
import Verif.Props.VecImu
import Verif.Props.VelPsd
import Verif.Props.VnoFile
import Verif.Spec.Gaps
import Verif.Spec.Orient
import Verif.Spec.Psd
import Verif.Spec.Rotate
import Verif.Spec.RotateGaps
import Verif.Spec.RotatePath
import Verif.Spec.Time
