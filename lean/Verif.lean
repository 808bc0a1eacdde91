import Verif.Base.Go
import Verif.Base.Bits
import Verif.Base.BR
import Verif.Base.StartCode
import Verif.Base.Meta
import Verif.TS.Model
import Verif.TS.Spec
import Verif.TS.View
import Verif.TS.Lemmas
import Verif.TS.Inv
import Verif.TS.Inv2
import Verif.TS.Trunc
import Verif.TS.Props
import Verif.TS.ReaderModel
import Verif.TS.ReaderSpec
import Verif.TS.ReaderLemmas
import Verif.TS.UnitLemmas
import Verif.TS.DeliverLemmas
import Verif.TS.ReaderProps
import Verif.TS.DemuxModel
import Verif.TS.DemuxProps
import Verif.TS.FairProps
import Verif.PES.Model
import Verif.PES.Spec
import Verif.PES.Lemmas
import Verif.PES.Inv
import Verif.PES.ReaderSpec
import Verif.PES.ReaderLemmas
import Verif.PES.BodyLemmas
import Verif.PES.Props
import Verif.PS.Model
import Verif.PS.Spec
import Verif.PS.Lemmas
import Verif.PS.ReaderLemmas
import Verif.PS.Total
import Verif.PS.Props
import Verif.PS.DecoderModel
import Verif.PS.DecoderSpec
import Verif.PS.DecoderLemmas
import Verif.PS.DecoderStream
import Verif.PS.DecoderProps
import Verif.PS.FairProps
import Verif.PS.PipeModel
import Verif.PS.PipeProps
import Verif.PS.AcceptProps
import Verif.Video.HeaderModel
import Verif.Video.HeaderSpec
import Verif.Video.HeaderLemmas
import Verif.Video.HeaderLemmas2
import Verif.Video.HeaderTotal
import Verif.Video.HeaderProps
import Verif.Video.VlcTables
import Verif.Video.VlcModel
import Verif.Video.VlcSpec
import Verif.Video.VlcLemmas
import Verif.Video.VlcProps
import Verif.Video.BlockModel
import Verif.Video.BlockSpec
import Verif.Video.BlockLemmas
import Verif.Video.BlockLemmas2
import Verif.Video.BlockProps
import Verif.Video.FrameModel
import Verif.Video.FrameSpec
import Verif.Video.FrameLemmas
import Verif.Video.FrameProps
import Verif.Video.MacroblockModel
import Verif.Video.MbSpec
import Verif.Video.MbLemmas
import Verif.Video.MbLemmas2
import Verif.Video.RefSpec
import Verif.Video.RefRel
import Verif.Video.PicSpec
import Verif.Video.RefLemmas
import Verif.Video.RefLemmas2
import Verif.Video.RefLemmas3
import Verif.Video.MbProps
import Verif.Video.RefLemmas4
import Verif.Video.RefLemmas5
import Verif.Video.RefProps
import Verif.Video.OrderSpec
import Verif.Video.OrderLemmas
import Verif.Video.OrderLemmas2
import Verif.Video.OrderLemmas3
import Verif.Video.OrderProps
import Verif.Video.LostSpec
import Verif.Video.LostLemmas
import Verif.Video.LostProps
import Verif.Video.IdctSpec
import Verif.Video.IdctLemmas
import Verif.Video.IdctReal
import Verif.Video.IdctLemmas2
import Verif.Video.IdctLemmas3
import Verif.Video.IdctProps
import Verif.Video.ExtSpec
import Verif.Video.ExtLemmas
import Verif.Video.ExtProps
import Verif.Video.MbProps2
import Verif.Video.StreamSpec
import Verif.Video.StreamLemmas
import Verif.Video.StreamLemmas2
import Verif.Video.StreamLemmas3
import Verif.Video.StreamLemmas4
import Verif.Video.StreamProps
import Verif.Video.RecoverSpec
import Verif.Video.RecoverLemmas
import Verif.Video.RecoverProps
import Verif.Video.RecoverFalse
import Verif.Video.RecoverExamples
import Verif.Video.MovesLemmas
import Verif.Video.TermSpec
import Verif.Video.TermLemmas
import Verif.Video.TermProps
import Verif.Video.CausSpec
import Verif.Video.CausLemmas
import Verif.Video.CausLemmas2
import Verif.Video.CausLemmas3
import Verif.Video.SyncLemmas
import Verif.Video.CausProps
import Verif.Video.ShapeSpec
import Verif.Video.ShapeLemmas
import Verif.Video.ShapeLemmas2
import Verif.Video.ShapeProps
import Verif.Video.HeapModel
import Verif.Video.HeapSpec
import Verif.Video.HeapLemmas
import Verif.Video.HeapLemmas2
import Verif.Video.HeapProps
import Verif.Video.IsoSpec
import Verif.Video.IsoLemmas
import Verif.Video.IsoLemmas2
import Verif.Video.IsoProps
import Verif.Pipe.Spec
import Verif.Pipe.Lemmas
import Verif.Pipe.Mux
import Verif.Pipe.Props
import Verif.Pipe.ProgramProps
import Verif.TS.NoiseSpec
import Verif.TS.NoiseLemmas
import Verif.TS.NoiseProps
import Verif.Pipe.TuneProps
import Verif.TS.ConserveProps
import Verif.PES.TruncProps
import Verif.Video.FaultProps
import Verif.Video.Mpeg1Spec
import Verif.Video.Mpeg1Lemmas
import Verif.Video.Mpeg1Props
import Verif.TS.RepoTests
import Verif.PES.RepoTests
import Verif.Text.Model
import Verif.Video.AcceptLemmas
import Verif.Video.AcceptProps
import Verif.Video.SynProps
import Verif.Video.PanicProps
import Verif.TS.PipeProps
import Verif.TS.LifeProps
import Verif.TS.AcceptProps
import Verif.PES.AcceptProps
import Verif.PS.ExactProps
import Verif.PS.LifeModel
import Verif.PS.LifeProps
import Verif.Video.PredPanicProps
import Verif.Video.PanicExactProps
import Verif.Video.NextPanicProps
import Verif.Text.Props
import Verif.Video.RepoTests
import Verif.Video.FieldSpec
import Verif.Video.FieldLemmas
import Verif.Video.FieldLemmas2
import Verif.Video.FieldLemmas3
import Verif.Video.FieldProps
import Verif.Base.ReadToEnd
import Verif.PS.StallLemmas
import Verif.Pipe.ReadToEndProps
import Verif.Pipe.StraightProps
import Verif.Pipe.ContractProps
import Verif.TS.IsolationProps
import Verif.Pipe.SkipProps
import Verif.Video.SliceLossSpec
import Verif.Video.SliceLossLemmas
import Verif.Video.SliceLossLemmas2
import Verif.Video.SliceLossProps
import Verif.Video.SliceLossProps2
import Verif.Video.HoldProps
import Verif.Pipe.HoldProps
import Verif.TS.AllocModel
import Verif.PES.AllocModel
import Verif.Pipe.AllocProps
import Verif.Pipe.RetryProps
import Verif.Pipe.LossProps
import Verif.Base.Local
import Verif.Pipe.LocalTS
import Verif.Pipe.LocalLemmas
import Verif.Pipe.LocalProps
import Verif.Video.NearProps
import Verif.Video.LiveProps
import Verif.Pipe.DelayProps
import Verif.Video.ResyncProps
import Verif.Pipe.ErrProps
import Verif.Video.DamageProps
import Verif.Video.SessionProps
import Verif.Video.RoundsExample
import Verif.Video.DriftProps
import Verif.Video.SpreadSpec
import Verif.Video.SpreadLemmas
import Verif.Video.SpreadLemmas2
import Verif.Video.SpreadProps
import Verif.Video.IdctLemmas4
import Verif.Video.UniversalLemmas
import Verif.Video.IdctProps2
import Verif.Video.UniversalSpec
import Verif.Video.UniversalProps
import Verif.Pipe.UniversalProps
import Verif.Video.CostLemmas
import Verif.Video.CostProps
import Verif.Video.FillSpec
import Verif.Video.FillLemmas
import Verif.Video.FillProps
import Verif.Pipe.AmpLemmas
import Verif.Pipe.AmpLemmas2
import Verif.Pipe.AmpProps
import Verif.Video.DisplayProps
import Verif.Video.EquivProps
import Verif.Video.EntryProps
import Verif.Video.JoinProps
import Verif.PES.PanicSpec
import Verif.PES.PanicProps
import Verif.TS.PanicProps
import Verif.Pipe.ContainerProps
import Verif.TS.CalmSpec
import Verif.Pipe.CalmProps
import Verif.Video.CleanSpec
import Verif.Video.CleanProps
import Verif.Video.FCodeProps
import Verif.Video.StartCodeSpec
import Verif.Video.StartCodeProps
import Verif.Video.GapProps
import Verif.Video.GapsProps
import Verif.Pipe.GapChain
import Verif.Video.JoinableSpec
import Verif.Video.JoinableProps
import Verif.Pipe.JoinChain
import Verif.Video.HeadLostSpec
import Verif.Video.HeadLostProps
import Verif.Video.TwiceSpec
import Verif.Video.TwiceProps
import Verif.Video.AnyOrderSpec
import Verif.Video.AnyOrderProps
import Verif.Video.HeaderOnlySpec
import Verif.Video.HeaderOnlyProps
import Verif.Video.OnlineProps
import Verif.Video.ServedSpec
import Verif.Video.ServedProps
