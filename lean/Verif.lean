import Verif.Common
import Verif.Fs.Spec
import Verif.Fs.FileModel
import Verif.Fs.FileLemmas
import Verif.Fs.FileProps
import Verif.Fs.FsModel
import Verif.Fs.FsLemmas
import Verif.Fs.FsProps
import Verif.Nr.Model
import Verif.Nr.Props
import Verif.Nr.Multilog
import Verif.Fs.Multilog
import Verif.Sync.Count
import Verif.Sync.RwLockModel
import Verif.Sync.RwLockProps
import Verif.Sync.MpmcModel
import Verif.Sync.MpmcLemmas
import Verif.Sync.MpmcProps
import Verif.Rpc.Model
import Verif.Rpc.Props
import Verif.Mem.Spec
import Verif.Mem.FrameModel
import Verif.Mem.FrameProps
import Verif.Mem.McacheModel
import Verif.Mem.McacheProps
import Verif.Mem.ConserveProps
import Verif.Mem.AllocModel
import Verif.Mem.AllocProps
import Verif.Mem.DetModel
import Verif.Mem.DetProps
import Verif.Mem.BootModel
import Verif.Mem.BootProps
import Verif.VSpace.RightsModel
import Verif.VSpace.RightsProps
import Verif.VSpace.PageTableModel
import Verif.VSpace.PageTableLemmas
import Verif.VSpace.VSpaceModel
import Verif.VSpace.VSpaceLemmas
import Verif.VSpace.VSpaceProps
import Verif.Proc.CoreSetModel
import Verif.Proc.CoreSetProps
import Verif.Proc.NodeModel
import Verif.Proc.NodeProps
import Verif.Proc.ProcModel
import Verif.Proc.FramesLemmas
import Verif.Proc.FramesProps
import Verif.Proc.ExecProps
import Verif.Proc.ProcWitness
import Verif.Proc.UserModel
import Verif.Proc.UserProps
import Verif.Tlb.TlbModel
import Verif.Tlb.TlbLemmas
import Verif.Tlb.TlbProps
import Verif.Tlb.TlbWitness
import Verif.Rack.ThreadsModel
import Verif.Rack.ThreadsProps
import Verif.Rack.DcmModel
import Verif.Rack.DcmProps
import Verif.Lineup.LockModel
import Verif.Lineup.LockLemmas
import Verif.Lineup.LockProps
import Verif.Lineup.LockWitness
import Verif.Lineup.RwModel
import Verif.Lineup.RwLemmas
import Verif.Lineup.RwProps
import Verif.Lineup.SemModel
import Verif.Lineup.SemProps
import Verif.Lineup.SchedModel
import Verif.Lineup.TimerProps
import Verif.Lineup.SchedLemmas
import Verif.Lineup.SchedProps
import Verif.Lineup.SchedWitness
import Verif.Sys.SyscallModel
import Verif.Sys.SyscallProps
import Verif.Sys.CmdlineModel
import Verif.Sys.CmdlineProps
import Verif.Load.LoaderModel
import Verif.Load.LoaderLemmas
import Verif.Load.LoaderSpec
import Verif.Load.LoaderData
import Verif.Load.LoaderProc
import Verif.Load.LoaderProps
import Verif.Rack.RemoteFsModel
import Verif.Rack.RemoteFsLemmas
import Verif.Rack.RemoteFsProps
import Verif.Machine.MachineModel
import Verif.Machine.SepLemmas
import Verif.Machine.CacheLemmas
import Verif.Machine.OwnLemmas
import Verif.Machine.MachineLemmas
import Verif.Machine.MachineProps
import Verif.Machine.MachineWitness
import Verif.Machine.FrameCallProps
import Verif.Heap.HeapModel
import Verif.Heap.HeapSpec
import Verif.Heap.HeapLemmas
import Verif.Heap.HeapServe
import Verif.Heap.HeapProps
import Verif.Heap.HeapWitness
import Verif.Rack.ResourceModel
import Verif.Rack.CoreLemmas
import Verif.Rack.CoreSpec
import Verif.Rack.CoreProps
import Verif.Rack.CoreWitness
import Verif.Rack.PageLemmas
import Verif.Rack.PageProps
import Verif.Rack.PageSpec
import Verif.Rack.PageInv
import Verif.Rack.PageRoom
import Verif.Rack.PageHistProps
import Verif.Rack.MapModel
import Verif.Rack.MapLemmas
import Verif.Rack.MapPlan
import Verif.Rack.MapInv
import Verif.Rack.MapProps
import Verif.Rack.MapWitness
import Verif.Rack.RefillModel
import Verif.Rack.RefillSpec
import Verif.Rack.RefillLemmas
import Verif.Rack.RefillPlan
import Verif.Rack.RefillProps
import Verif.Rack.RefillStore
import Verif.Rack.RefillWitness
import Verif.Tlb.RackModel
import Verif.Tlb.RackLemmas
import Verif.Tlb.RackInv
import Verif.Tlb.RackCalls
import Verif.Tlb.RackProps
import Verif.Tlb.RackWitness
import Verif.Tlb.IpiModel
import Verif.Tlb.IpiProps
import Verif.Cpu.AsmModel
import Verif.Cpu.AsmSpec
import Verif.Cpu.AsmLemmas
import Verif.Cpu.AsmProps
import Verif.Cpu.UpcallModel
import Verif.Cpu.UpcallProps
import Verif.Cpu.StackModel
import Verif.Cpu.StackProps
import Verif.VSpace.OverlapProps
import Verif.Rpc.TcpModel
import Verif.Rpc.TcpSpec
import Verif.Rpc.TcpLemmas
import Verif.Rpc.TcpProps
import Verif.Rpc.TcpCallProps
import Verif.Net.TxModel
import Verif.Net.TxSpec
import Verif.Net.TxLemmas
import Verif.Net.TxStep
import Verif.Net.TxProps
import Verif.Net.RxModel
import Verif.Net.RxSpec
import Verif.Net.RxLemmas
import Verif.Net.RxStep
import Verif.Net.RxDev
import Verif.Net.RxDeq
import Verif.Net.RxProps
import Verif.Lineup.ParkModel
import Verif.Lineup.ParkSpec
import Verif.Lineup.ParkLemmas
import Verif.Lineup.ParkProps
import Verif.UHeap.UHeapModel
import Verif.UHeap.UHeapSpec
import Verif.UHeap.UHeapLemmas
import Verif.UHeap.UHeapProps
import Verif.UHeap.UHeapWitness
import Verif.UHeap.UHeapReuse
import Verif.UHeap.UHeapAlign
import Verif.UHeap.CMemModel
import Verif.UHeap.CMemSpec
import Verif.UHeap.CMemLemmas
import Verif.UHeap.CMemProps
import Verif.UHeap.CMemWitness
import Verif.UHeap.TlsModel
import Verif.UHeap.TlsSpec
import Verif.UHeap.TlsLemmas
import Verif.UHeap.TlsProps
import Verif.UHeap.TlsWitness
import Verif.Boot.BootModel
import Verif.Boot.MapLemmas
import Verif.Boot.BootSpec
import Verif.Boot.BootLemmas
import Verif.Boot.BootProps
import Verif.Boot.BootWitness
import Verif.VSpace.OplogModel
import Verif.VSpace.OplogSpec
import Verif.VSpace.OplogLemmas
import Verif.VSpace.OplogProps
import Verif.VSpace.OplogWitness
import Verif.Fs.RefModel
import Verif.Fs.RefSpec
import Verif.Fs.RefLemmas
import Verif.Fs.RefSim
import Verif.Fs.RefProps
import Verif.Fs.FioModel
import Verif.Fs.FioSpec
import Verif.Fs.FioSim
import Verif.Fs.FioSteps
import Verif.Fs.FioProps
import Verif.Gdb.BreakModel
import Verif.Gdb.BreakSpec
import Verif.Gdb.BreakProps
import Verif.Gdb.RegModel
import Verif.Gdb.RegSpec
import Verif.Gdb.RegProps
import Verif.Gdb.MemModel
import Verif.Gdb.MemSpec
import Verif.Gdb.MemProps
import Verif.Sync.ConqModel
import Verif.Sync.ConqSpec
import Verif.Sync.ConqLemmas
import Verif.Sync.ConqProps
import Verif.VSpace.DropWitness
import Verif.VSpace.DropProps
import Verif.VSpace.DropSpec
import Verif.VSpace.DropModel
import Verif.VSpace.DropLemmas
import Verif.VSpace.DropInv
import Verif.VSpace.DropSim
import Verif.Rack.ShmSpec
import Verif.Rack.ShmModel
import Verif.Rack.ShmLemmas
import Verif.Rack.ShmQueue
import Verif.Rack.ShmProps
import Verif.Rack.ShmWitness
import Verif.Console.Spec
import Verif.Console.Model
import Verif.Console.Lemmas
import Verif.Console.Props
import Verif.Console.Witness
import Verif.Start.Spec
import Verif.Start.Model
import Verif.Start.Lemmas
import Verif.Start.Props
import Verif.Start.Witness
import Verif.Coreboot.Witness
import Verif.Coreboot.Props
import Verif.Rack.ArenaSpec
import Verif.Rack.ArenaModel
import Verif.Rack.ArenaLemmas
import Verif.Rack.ArenaInv
import Verif.Rack.ArenaProps
import Verif.Rack.ArenaWitness
import Verif.Pci.Spec
import Verif.Pci.Model
import Verif.Pci.Lemmas
import Verif.Pci.MemLemmas
import Verif.Pci.Props
import Verif.Pci.Witness
import Verif.Nic.Spec
import Verif.Nic.BitModel
import Verif.Nic.BitLemmas
import Verif.Nic.Model
import Verif.Nic.Lemmas
import Verif.Nic.LogLemmas
import Verif.Nic.UpLemmas
import Verif.Nic.Props
import Verif.Nic.Witness
import Verif.Hist.Spec
import Verif.Hist.Model
import Verif.Hist.Lemmas
import Verif.Hist.Inv
import Verif.Hist.Props
import Verif.Hist.Witness
import Verif.Boot.FlagProps
import Verif.Rump.HostSpec
import Verif.Rump.HostModel
import Verif.Rump.HostProps
import Verif.Rump.HostWitness
import Verif.Rump.FileSpec
import Verif.Rump.FileModel
import Verif.Rump.FileProps
import Verif.Rump.FileWitness
import Verif.Rump.LwpModel
import Verif.Rump.LwpLemmas
import Verif.Rump.LwpInv
import Verif.Rump.LwpReach
import Verif.Rump.LwpProps
import Verif.Rump.LwpWitness
import Verif.Proc.DispatchModel
import Verif.Proc.DispatchSpec
import Verif.Proc.DispatchLemmas
import Verif.Proc.DispatchInv
import Verif.Proc.DispatchProps
import Verif.Proc.DispatchWitness
import Verif.Rump.VcpuModel
import Verif.Rump.VcpuSpec
import Verif.Rump.VcpuLemmas
import Verif.Rump.VcpuProps
import Verif.Rump.VcpuWitness
import Verif.Irq.MsiModel
import Verif.Irq.MsiSpec
import Verif.Irq.MsiProps
import Verif.Irq.MsiWitness
import Verif.Boot.ModsModel
import Verif.Boot.ModsSpec
import Verif.Boot.ModsProps
import Verif.Boot.ModsWitness
import Verif.Acpi.Spec
import Verif.Acpi.Model
import Verif.Acpi.Lemmas
import Verif.Acpi.Props
import Verif.Acpi.Witness
import Verif.Mem.PmemSpec
import Verif.Mem.PmemModel
import Verif.Mem.PmemProps
import Verif.Mem.PmemWitness
import Verif.Cpu.SegSpec
import Verif.Cpu.SegModel
import Verif.Cpu.SegProps
import Verif.Cpu.SegInt
import Verif.Cpu.SegStack
