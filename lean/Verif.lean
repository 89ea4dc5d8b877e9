import Verif.Base.Dict
import Verif.Base.Sort
import Verif.HostCache.Props
import Verif.FlowReorder.Props
import Verif.FlowReorder.Simple
import Verif.Learn.Props
import Verif.Learn.Switch
import Verif.Encoding.Props
import Verif.Actions.Props
import Verif.Flood.Examples
import Verif.Service.Props
import Verif.Config.Examples
import Verif.Config.Conf
import Verif.Ports.Props
import Verif.Lacp.Examples
import Verif.FlowReorder.Flows
import Verif.Acl.Examples
import Verif.Acl.FailoverEx
import Verif.Route.Resolve
import Verif.Route.Lpm
import Verif.Route.Examples
import Verif.Route.Answer
import Verif.Route.AnswerProps
import Verif.Route.AnswerExamples
import Verif.Stack.Examples
import Verif.Stack.HostsExamples
import Verif.Reload.Examples
import Verif.Ranges.Examples
import Verif.Dot1x.Examples
import Verif.Dot1x.Reset
import Verif.Pipeline.Examples
import Verif.Tunnel.Examples
import Verif.OpenFlow.Eval
import Verif.L2.Examples
import Verif.L2.DeliveryExamples
import Verif.L2.Known
import Verif.AclSw.Shift
import Verif.AclSw.Model
import Verif.AclSw.Spec
import Verif.AclSw.Tables
import Verif.AclSw.Packets
import Verif.AclSw.Inv
import Verif.AclSw.Props
import Verif.AclSw.Examples
import Verif.Metrics.Examples
import Verif.Multi.Examples
import Verif.L2.ReloadModel
import Verif.L2.ReloadProps
import Verif.L2.ReloadExamples
import Verif.FlowReorder.Batch
import Verif.Gauge.Model
import Verif.Gauge.Props
import Verif.Gauge.Polls
import Verif.Gauge.Prom
import Verif.Gauge.Examples
import Verif.Valid.Model
import Verif.Valid.Spec
import Verif.Valid.Vlans
import Verif.Valid.All
import Verif.Valid.Props
import Verif.Valid.WF
import Verif.Valid.Routers
import Verif.Valid.Links
import Verif.Valid.Accept
import Verif.Valid.Examples
import Verif.Routed.Examples
import Verif.Features.Props
import Verif.Features.AclFit
import Verif.Features.Examples
import Verif.Lldp.Examples
import Verif.Meters.Examples
import Verif.Copro.Examples
