import Verif.Basic
import Verif.Crc.Model
import Verif.Crc.Lemmas
import Verif.Crc.Props
import Verif.Cobs.Model
import Verif.Cobs.Lemmas
import Verif.Cobs.Props
import Verif.FilterConfig.Model
import Verif.FilterConfig.Lemmas
import Verif.FilterConfig.Props
import Verif.Core.Time
import Verif.Core.Transfer
import Verif.Can.IdModel
import Verif.Can.IdLemmas
import Verif.Can.IdProps
import Verif.Can.Frame
import Verif.Can.RxModel
import Verif.Can.RxSpec
import Verif.Can.RxLemmas
import Verif.Can.RxTableLemmas
import Verif.Can.RxTableProps
import Verif.Can.RxSessionProps
import Verif.Can.RxReassembly
import Verif.Can.RxReassemblyProps
import Verif.Can.FilterModel
import Verif.Can.FilterProps
import Verif.Can.TxModel
import Verif.Can.TxSpec
import Verif.Can.TxLemmas
import Verif.Can.TxProps
import Verif.Can.QueueModel
import Verif.Can.QueueSpec
import Verif.Can.QueueLemmas
import Verif.Can.QueueProps
import Verif.Can.DriverModel
import Verif.Can.DriverLemmas
import Verif.Can.DriverSpec
import Verif.Can.DriverProps
import Verif.Can.RedundantProps
import Verif.Can.TidModel
import Verif.Can.TidProps
import Verif.Can.RoundTripProps
import Verif.Can.StreamSpec
import Verif.Can.Stream
import Verif.Can.StreamProps
import Verif.Can.BusesSpec
import Verif.Can.BusesProps
import Verif.Core.Bytes
import Verif.Hdr.Model
import Verif.Hdr.Props
import Verif.Core.Subscriptions
import Verif.Serial.Model
import Verif.Serial.Spec
import Verif.Serial.Lemmas
import Verif.Serial.Invariants
import Verif.Serial.Props
import Verif.Serial.StreamSpec
import Verif.Serial.StreamProps
import Verif.Udp.Demo
import Verif.Udp.Model
import Verif.Udp.TxSpec
import Verif.Udp.TxProps
import Verif.Udp.RxSpec
import Verif.Udp.RxLemmas
import Verif.Udp.RxRun
import Verif.Udp.RxInv
import Verif.Udp.RxProps
import Verif.Udp.AddrProps
import Verif.Udp.GroupProps
import Verif.Enc.Model
import Verif.Enc.Spec
import Verif.Enc.Lemmas
import Verif.Enc.WLemmas
import Verif.Enc.Props
import Verif.Enc.CompositeProps
import Verif.Enc.BitArrayProps
import Verif.Bls.Props
import Verif.Node.Props
import Verif.Dsdl.Props
import Verif.App.Props
import Verif.Pnp.Props
import Verif.Reg.Props
import Verif.Ses.Props
import Verif.Pnp.CrcProps
import Verif.Front.SolveProps
import Verif.Front.TypesProps
import Verif.Front.LenProps
import Verif.Front.GenProps
import Verif.Front.NamesProps
import Verif.Front.PanicProps
import Verif.Parse.ParseProps
import Verif.Parse.CompleteProps
import Verif.Pkg.Props
import Verif.End.Spec
import Verif.End.Lemmas
import Verif.End.Props
import Verif.End.SerialSpec
import Verif.End.SerialProps
import Verif.Drv.Model
import Verif.Drv.Spec
import Verif.Drv.Lemmas
import Verif.Drv.Props
import Verif.Drv.FilterModel
import Verif.Drv.FilterProps
import Verif.Drv.LinuxModel
import Verif.Drv.LinuxProps
import Verif.Drv.OrderModel
import Verif.Drv.OrderProps
import Verif.Tool.CrcModel
import Verif.Tool.CrcProps
import Verif.Dsdl.OptimizedModel
import Verif.Dsdl.OptimizedProps
import Verif.End.CallSpec
import Verif.End.CallLemmas
import Verif.End.CallProps
import Verif.End.PortsModel
import Verif.End.PortsProps
import Verif.End.NodePorts
import Verif.End.TransportPorts
import Verif.End.UdpGroups
import Verif.Drv.PnpModel
import Verif.Drv.PnpProps
import Verif.Udp.StreamSpec
import Verif.Udp.StreamLemmas
import Verif.Udp.StreamProps
import Verif.End.UdpSpec
import Verif.End.UdpProps
import Verif.Drv.KeepProps
import Verif.End.StackModel
import Verif.End.StackSpec
import Verif.End.StackLemmas
import Verif.End.StackProps
import Verif.Flex.Model
import Verif.Flex.Spec
import Verif.Flex.Lemmas
import Verif.Flex.Props
import Verif.Flex.Filter
import Verif.Flex.FilterProps
import Verif.Front.Heck
import Verif.Front.Warn
import Verif.Front.WarnLemmas
import Verif.Front.WarnProps
import Verif.Front.Inner
import Verif.Front.InnerProps
import Verif.Macro.Model
import Verif.Macro.Spec
import Verif.Macro.Lemmas
import Verif.Macro.Props
import Verif.Macro.Program
import Verif.Macro.ProgramProps
import Verif.End.SerialCallProps
import Verif.End.UdpCallProps
import Verif.Dsdl.ReadsEnd
import Verif.Shipped.Props
import Verif.Shipped.Used
import Verif.Pkg.CodeProps
import Verif.Docs.Props
import Verif.Tool.FilterProps
import Verif.Reg.ClientProps
import Verif.Bls.WideProps
import Verif.Front.WideProps
import Verif.Core.Ids
import Verif.Core.IdsProps
import Verif.Flex.Init
import Verif.Flex.InitProps
import Verif.Core.Equal
import Verif.Core.EqualProps
