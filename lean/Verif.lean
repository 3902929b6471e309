import Verif.Utils.Props
import Verif.Ravl.Props
import Verif.Coarse.Props
import Verif.Coarse.FreeIndex
import Verif.Critnib.Props
import Verif.Critnib.ConcProps
import Verif.BaseAlloc.FixedProps
import Verif.BaseAlloc.LinearProps
import Verif.BaseAlloc.GlobalProps
import Verif.Tracker.Props
import Verif.Tracker.Link
import Verif.Tracker.Concurrent
import Verif.Ipc.Props
import Verif.Disjoint.Props
import Verif.Disjoint.Limits
import Verif.Disjoint.Bitmap
import Verif.Disjoint.ConcWitness
import Verif.Os.Props
import Verif.Os.Bind
import Verif.Os.Stats
import Verif.FileProv.Props
import Verif.Api.Props
import Verif.Api.PoolProps
import Verif.Log.Concrete
import Verif.Memspace.Best
import Verif.Policy.Props
import Verif.Ctl.Props
import Verif.Ctl.ConfigProps
import Verif.Init.Props
import Verif.Init.CycleProps
import Verif.Proxy.Concrete
import Verif.Gpu.Props
import Verif.Heap.Props
import Verif.Heap.Purge
import Verif.Tag.Props
import Verif.CpuProv.Witness
import Verif.CpuProv.First
import Verif.CpuIpc.Witness
import Verif.Stack.Witness
import Verif.Native.Props
import Verif.Params.Witness
import Verif.DjHost.Props
import Verif.TrkConc.Witness
import Verif.RavlMem.Witness
import Verif.IpcMem.Witness
import Verif.CoarseMem.Witness
import Verif.CoarseMem.RefWitness
import Verif.Critnib.DelProps
import Verif.IpcExp.Props
import Verif.CtlMem.Props
import Verif.Topo.Props
import Verif.TrkMem.Create
import Verif.TrkMem.Witness
import Verif.ProxyOpt.Witness
import Verif.IpcEnd.Witness
import Verif.TrkMem.LeftWitness
import Verif.PoolApi.Witness
import Verif.PolicyMem.Witness
import Verif.TrkPass.Props
import Verif.FromSpace.Witness
import Verif.Files.Witness
