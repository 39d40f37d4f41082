import Verif.FletcherProps
import Verif.KermitProps
import Verif.HammingProps
import Verif.RingProps
import Verif.CueProps
import Verif.FibonacciProps
import Verif.ModulatorProps
import Verif.ControllerProps
import Verif.EscapeProps
import Verif.StringCopyProps
import Verif.CommandProps
import Verif.FramerProps
import Verif.FramerReaderProps
import Verif.ThrottleProps
import Verif.ListProps
import Verif.ListAuditProps
import Verif.TreeProps
import Verif.TreeAuditProps
import Verif.ReaderWriterProps
import Verif.EscapeGrammarProps
import Verif.ControllerLawProps
import Verif.MemoryProps
import Verif.TimeProps
import Verif.FdProps
import Verif.WellProps
import Verif.PoolProps
import Verif.BufferProps
import Verif.LockProps
import Verif.SignalsProps
import Verif.TimerProps
import Verif.ObservationProps
import Verif.DumpProps
import Verif.CanonicalProps
import Verif.MuxProps
import Verif.EndpointProps
import Verif.PingProps
import Verif.PhexProps
import Verif.MeterProps
import Verif.ScatterGatherProps
import Verif.PollProps
import Verif.AddressProps
import Verif.ThreadProps
import Verif.NumberProps
import Verif.WalkerProps
import Verif.MkdirProps
import Verif.IpclProps
import Verif.EndpointTextProps
import Verif.SocketProps
import Verif.InterfacesProps
import Verif.OptionsProps
import Verif.LineProps
import Verif.LineRequestProps
import Verif.DelayProps
import Verif.MapProps
import Verif.FdMapProps
import Verif.PinProps
import Verif.I2cProps
import Verif.SectionProps
import Verif.LogProps
import Verif.BasicsProps
import Verif.SerialProps
import Verif.DaemonProps
import Verif.SanitizeProps
import Verif.SpinProps
import Verif.MaskProps
import Verif.ConditionProps
import Verif.TreeCloseProps
import Verif.Ping6Props
import Verif.ReaperProps
import Verif.RealtimeProps
import Verif.ModuleProps
import Verif.DriverProps
import Verif.KernelMapProps
import Verif.UbootProps
import Verif.WipeProps
import Verif.ShaperToolProps
import Verif.DecProps
import Verif.IpcalcProps
import Verif.MemtoolProps
import Verif.ConestogaProps
import Verif.FramertoolProps
import Verif.PintoolProps
import Verif.LinetoolProps
import Verif.SerialtoolProps
import Verif.DatagramProps
import Verif.ShaperbufferedProps
import Verif.LogtoolProps
import Verif.MetertoolProps
import Verif.ZoneProps
import Verif.ModsetProps
import Verif.InternettoolProps
import Verif.EchoProps
import Verif.MmdrivertoolProps
import Verif.GramProps
import Verif.ItimerProps
import Verif.MakingProps
import Verif.StrdupProps
import Verif.WagonProps
import Verif.DumptoolProps
import Verif.CollapsetoolProps
import Verif.RenametoolProps
import Verif.PhextoolProps
import Verif.ElapsedsleepProps
import Verif.GpiotoolProps
import Verif.MemorysizeProps
import Verif.FramerAbortProps
import Verif.MuxsignalProps
import Verif.FramerGetProps
import Verif.ThrottleGetProps
import Verif.ListMailProps
import Verif.FlickerProps
import Verif.ListingProps
import Verif.LuxProps
import Verif.LuxtoolProps
import Verif.AdcProps
import Verif.RegulateProps
import Verif.IlluminateProps
import Verif.RheostatProps
