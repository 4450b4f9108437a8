import Verif.Abi.CProps
import Verif.Abi.Lemmas
import Verif.Abi.Model
import Verif.Abi.Props
import Verif.Abi.Spec
import Verif.Amd64.Lemmas
import Verif.Amd64.Model
import Verif.Amd64.Props
import Verif.Amd64.Spec
import Verif.Api.AnswerModel
import Verif.Api.AnswerProps
import Verif.Api.DocModel
import Verif.Api.DocProps
import Verif.Api.ExampleModel
import Verif.Api.ExampleProps
import Verif.Api.FuncLemmas
import Verif.Api.FuncModel
import Verif.Api.FuncProps
import Verif.Api.FuncSpec
import Verif.Api.IterLemmas
import Verif.Api.LinkLemmas
import Verif.Api.StructModel
import Verif.Api.StructProps
import Verif.Api.StructSpec
import Verif.Api.TagModel
import Verif.Api.TagProps
import Verif.Arm64.BitFin
import Verif.Arm64.BitLemmas
import Verif.Arm64.Disasm
import Verif.Arm64.Lemmas
import Verif.Arm64.Model
import Verif.Arm64.Props
import Verif.Arm64.Spec
import Verif.Bin.Lemmas
import Verif.Bin.Model
import Verif.Bin.Props
import Verif.Bin.Spec
import Verif.Bit.Model
import Verif.Bit.Props
import Verif.Call.BackModel
import Verif.Call.BackProps
import Verif.Call.LinkModel
import Verif.Call.LinkProps
import Verif.Call.TagLemmas
import Verif.Call.TagLemmas2
import Verif.Call.TagModel
import Verif.Call.TagProps
import Verif.Call.TagSpec
import Verif.Cmdl.Lemmas
import Verif.Cmdl.Model
import Verif.Cmdl.OptModel
import Verif.Cmdl.OptProps
import Verif.Cmdl.Props
import Verif.Cmdl.RunProps
import Verif.Cmdl.Spec
import Verif.Data.Lemmas
import Verif.Data.Model
import Verif.Data.Props
import Verif.Data.Spec
import Verif.Ffi.BoxModel
import Verif.Ffi.BoxProps
import Verif.Ffi.BoxSpec
import Verif.Ffi.MemModel
import Verif.Ffi.MemProps
import Verif.Ffi.RefModel
import Verif.Ffi.RefProps
import Verif.Fmts.Lemmas
import Verif.Fmts.Model
import Verif.Fmts.Props
import Verif.Grpc.EncLemmas
import Verif.Grpc.EncModel
import Verif.Grpc.EncSpec
import Verif.Grpc.GroupLemmas
import Verif.Grpc.Lemmas
import Verif.Grpc.Model
import Verif.Grpc.Props
import Verif.Grpc.Spec
import Verif.Grpc.Wire
import Verif.Jrpc.FloatModel
import Verif.Jrpc.FloatProps
import Verif.Jrpc.Lemmas
import Verif.Jrpc.Lemmas2
import Verif.Jrpc.Lemmas3
import Verif.Jrpc.Lemmas4
import Verif.Jrpc.Model
import Verif.Jrpc.ObjModel
import Verif.Jrpc.ObjProps
import Verif.Jrpc.Props
import Verif.Jrpc.Spec
import Verif.Jrpc.Spec2
import Verif.Json.TextLemmas
import Verif.Json.TextModel
import Verif.Json.TextProps
import Verif.Json.TextSpec
import Verif.Kvs.ConcModel
import Verif.Kvs.ConcProps
import Verif.Kvs.ConcSpec
import Verif.Kvs.Model
import Verif.Kvs.OpenModel
import Verif.Kvs.OpenProps
import Verif.Kvs.OpenSpec
import Verif.Kvs.Props
import Verif.Kvs.Spec
import Verif.Mmm.CopyModel
import Verif.Mmm.CopyProps
import Verif.Mmm.Lemmas
import Verif.Mmm.Lemmas1
import Verif.Mmm.Lemmas2
import Verif.Mmm.Lemmas3
import Verif.Mmm.Lemmas4
import Verif.Mmm.Model
import Verif.Mmm.Props
import Verif.Mmm.Spec
import Verif.Oas.FormModel
import Verif.Oas.FormProps
import Verif.Oas.Lemmas
import Verif.Oas.Meaning
import Verif.Oas.Model
import Verif.Oas.NameModel
import Verif.Oas.NameProps
import Verif.Oas.Props
import Verif.Oas.RefModel
import Verif.Oas.RefProps
import Verif.Oas.RouteModel
import Verif.Oas.RouteProps
import Verif.Oas.RouteSpec
import Verif.Oas.Spec
import Verif.Pair.Lemmas
import Verif.Pair.Model
import Verif.Pair.Props
import Verif.Pair.Spec
import Verif.Qnq.DurModel
import Verif.Qnq.DurProps
import Verif.Qnq.Lemmas
import Verif.Qnq.Lemmas2
import Verif.Qnq.Lemmas3
import Verif.Qnq.Model
import Verif.Qnq.Props
import Verif.Qnq.Spec
import Verif.Rest.DenoModel
import Verif.Rest.DenoProps
import Verif.Rest.FieldModel
import Verif.Rest.FieldProps
import Verif.Rest.FormModel
import Verif.Rest.FormProps
import Verif.Rest.FormSpec
import Verif.Rest.HeaderModel
import Verif.Rest.HeaderProps
import Verif.Rest.HttpModel
import Verif.Rest.HttpProps
import Verif.Rest.HttpProps2
import Verif.Rest.ListProps
import Verif.Rest.ListSpec
import Verif.Rest.MuxLemmas
import Verif.Rest.MuxModel
import Verif.Rest.MuxProps
import Verif.Rest.MuxSpec
import Verif.Rest.ParseLemmas
import Verif.Rest.ParseModel
import Verif.Rest.ParseProps
import Verif.Rest.ParseSpec
import Verif.Rest.PipeModel
import Verif.Rest.PipeProps
import Verif.Rest.PipeProps2
import Verif.Rest.PipeProps3
import Verif.Rest.PipeProps4
import Verif.Rest.PipeProps5
import Verif.Rest.ScanLemmas
import Verif.Rest.ScanModel
import Verif.Rest.ScanProps
import Verif.Rest.ServeFails
import Verif.Rest.ServeLemmas
import Verif.Rest.ServeLemmas2
import Verif.Rest.ServeModel
import Verif.Rest.ServeProps
import Verif.Rest.ServeSpec
import Verif.Rest.TagsModel
import Verif.Rest.TagsProps
import Verif.Rest.TagsSpec
import Verif.Rest.TextModel
import Verif.Rest.TextProps
import Verif.Rest.UrlLemmas
import Verif.Rest.UrlModel
import Verif.Rest.WalkLemmas
import Verif.Rest.WalkProps
import Verif.Rest.WalkSpec
import Verif.Rpc.Model
import Verif.Rpc.Props
import Verif.Sdk.Lemmas
import Verif.Sdk.Model
import Verif.Sdk.Props
import Verif.Sdk.Spec
import Verif.Sock.Lemmas
import Verif.Sock.Model
import Verif.Sock.Props
import Verif.Sock.Spec
import Verif.Sql.Conc
import Verif.Sql.ConcLemmas
import Verif.Sql.ConcProps
import Verif.Sql.DbLemmas
import Verif.Sql.DbMapLemmas
import Verif.Sql.DbMapModel
import Verif.Sql.DbMapProps
import Verif.Sql.DbMapSpec
import Verif.Sql.DbModel
import Verif.Sql.DbProps
import Verif.Sql.DbSpec
import Verif.Sql.Flat
import Verif.Sql.FlatLemmas
import Verif.Sql.FlatProps
import Verif.Sql.FlatSpec
import Verif.Sql.Lemmas
import Verif.Sql.Model
import Verif.Sql.Props
import Verif.Sql.Spec
import Verif.Sql.StatModel
import Verif.Sql.StatProps
import Verif.Sql.StatSpec
import Verif.Sql.TxModel
import Verif.Sql.TxProps
import Verif.Sql.TxSpec
import Verif.Sql.ValueModel
import Verif.Sql.ValueProps
import Verif.Sql.ValueSpec
import Verif.Sql.WalkLemmas
import Verif.Sql.WalkModel
import Verif.Sql.WalkProps
import Verif.Sql.WalkSpec
import Verif.Via.Model
import Verif.Via.Props
import Verif.Vm.CbModel
import Verif.Vm.CbProps
import Verif.Vm.CbSpec
import Verif.Vm.ChkModel
import Verif.Vm.ChkProps
import Verif.Vm.ChkSpec
import Verif.Vm.Model
import Verif.Vm.PinModel
import Verif.Vm.PinProps
import Verif.Vm.PinSpec
import Verif.Vm.Props
import Verif.Vm.RegModel
import Verif.Vm.RegProps
import Verif.Vm.StrModel
import Verif.Vm.StrProps
import Verif.Vm.StrSpec
import Verif.Vm.VarModel
import Verif.Vm.VarProps
import Verif.Wasm.DefaultProps
import Verif.Wasm.LinkModel
import Verif.Wasm.LinkProps
import Verif.Wasm.SqueezeModel
import Verif.Wasm.SqueezeProps
import Verif.Wasm.StackModel
import Verif.Wasm.StackProps
import Verif.Xray.ErrModel
import Verif.Xray.ErrProps
import Verif.Xray.Model
import Verif.Xray.Props
import Verif.Xyz.ExternModel
import Verif.Xyz.ExternProps
import Verif.Xyz.PairModel
import Verif.Xyz.PairProps
import Verif.Xyz.SwitchModel
import Verif.Xyz.SwitchProps
import Verif.Xyz.SwitchProps2
import Verif.Xyz.SwitchTextModel
import Verif.Xyz.SwitchTextProps
import Verif.Xyz.TaggedJson
import Verif.Xyz.TaggedJsonProps
import Verif.Xyz.TaggedModel
import Verif.Xyz.TaggedProps
import Verif.Xyz.TuplesModel
import Verif.Xyz.TuplesProps
import Verif.Zgo.AsgModel
import Verif.Zgo.AsgProps
import Verif.Zgo.AsgSpec
import Verif.Zgo.CallModel
import Verif.Zgo.CallProps
import Verif.Zgo.CallSpec
import Verif.Zgo.ChanLemmas
import Verif.Zgo.ChanModel
import Verif.Zgo.ChanProps
import Verif.Zgo.ChanSpec
import Verif.Zgo.CompMapProps
import Verif.Zgo.CompModel
import Verif.Zgo.CompProps
import Verif.Zgo.CompSpec
import Verif.Zgo.ConstModel
import Verif.Zgo.ConstProps
import Verif.Zgo.ConstSpec
import Verif.Zgo.DeferModel
import Verif.Zgo.DeferProps
import Verif.Zgo.DeferSpec
import Verif.Zgo.DescModel
import Verif.Zgo.DescProps
import Verif.Zgo.EscLemmas
import Verif.Zgo.EscModel
import Verif.Zgo.EscProps
import Verif.Zgo.EscScan
import Verif.Zgo.EscSpec
import Verif.Zgo.FlowLemmas
import Verif.Zgo.FlowModel
import Verif.Zgo.FlowProps
import Verif.Zgo.FlowSpec
import Verif.Zgo.LitLemmas
import Verif.Zgo.LitModel
import Verif.Zgo.LitProps
import Verif.Zgo.LitSpec
import Verif.Zgo.LitUnderProps
import Verif.Zgo.MemModel
import Verif.Zgo.MemProps
import Verif.Zgo.NameModel
import Verif.Zgo.NameProps
import Verif.Zgo.NameSpec
import Verif.Zgo.OpLemmas
import Verif.Zgo.OpModel
import Verif.Zgo.OpProps
import Verif.Zgo.OpSpec
import Verif.Zgo.PrintModel
import Verif.Zgo.PrintProps
import Verif.Zgo.RangeModel
import Verif.Zgo.RangeProps
import Verif.Zgo.RangeSpec
import Verif.Zgo.SelModel
import Verif.Zgo.SelProps
import Verif.Zgo.SliceLemmas
import Verif.Zgo.SliceModel
import Verif.Zgo.SliceProps
import Verif.Zgo.SliceSpec
import Verif.Zgo.TypeLemmas
import Verif.Zgo.TypeModel
import Verif.Zgo.TypeProps
import Verif.Zgo.TypeSpec
