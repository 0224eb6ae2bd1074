import Verif.Acquire
import Verif.Props.Acquire
import Verif.Props.AcquireMore
import Verif.Aio
import Verif.Lemmas.Aio
import Verif.Props.Aio
import Verif.Ballot
import Verif.Lemmas.Ballot
import Verif.Props.Ballot
import Verif.Client
import Verif.Lemmas.Client
import Verif.Props.Client
import Verif.Props.ClientEnd
import Verif.Props.ClientKill
import Verif.CmdLine
import Verif.Lemmas.CmdLine
import Verif.Props.CmdLine
import Verif.Props.CmdLineCalls
import Verif.Props.CmdLineMore
import Verif.Config
import Verif.Props.Config
import Verif.Crc
import Verif.Props.Crc
import Verif.Delta
import Verif.Props.Delta
import Verif.Descr
import Verif.Lemmas.Descr
import Verif.Props.Descr
import Verif.Lemmas.DescrTried
import Verif.Direct
import Verif.Lemmas.Direct
import Verif.Props.Direct
import Verif.Event
import Verif.Lemmas.Event
import Verif.Props.Event
import Verif.Fence
import Verif.Props.Fence
import Verif.FenceOpts
import Verif.Props.FenceOpts
import Verif.Helper
import Verif.Props.Helper
import Verif.HelperArgs
import Verif.Props.HelperArgs
import Verif.History
import Verif.Props.History
import Verif.HostEvent
import Verif.Props.HostEvent
import Verif.HostName
import Verif.Props.HostName
import Verif.Hosts
import Verif.Props.Hosts
import Verif.IndexOps
import Verif.Lemmas.IndexOps
import Verif.Props.IndexOps
import Verif.Init
import Verif.Props.Init
import Verif.Props.InitMore
import Verif.Kill
import Verif.Props.Kill
import Verif.Lease
import Verif.Lemmas.Lease
import Verif.Props.Lease
import Verif.Lemmas.LeaseInv
import Verif.Lemmas.LeaseMine
import Verif.Lemmas.LeaseShare
import Verif.Lemmas.LeaseShareInv
import Verif.Lemmas.LeaseSim
import Verif.Liveness
import Verif.Props.Liveness
import Verif.Locks
import Verif.Lemmas.Locks
import Verif.Props.Locks
import Verif.Lockspace
import Verif.Props.Lockspace
import Verif.Log
import Verif.Props.Log
import Verif.Lvb
import Verif.Props.Lvb
import Verif.MultiLease
import Verif.Lemmas.MultiLease
import Verif.Props.MultiLease
import Verif.Lemmas.MultiLeaseInv
import Verif.Lemmas.MultiLeaseInv2
import Verif.Lemmas.MultiLeaseRun
import Verif.NoMem
import Verif.Lemmas.NoMem
import Verif.Props.NoMem
import Verif.OnDisk
import Verif.Props.OnDisk
import Verif.OneShot
import Verif.Props.OneShot
import Verif.OwnerTest
import Verif.Props.OwnerTest
import Verif.Owners
import Verif.Props.Owners
import Verif.Pool
import Verif.Props.Pool
import Verif.Python
import Verif.Props.Python
import Verif.Regs
import Verif.Lemmas.Regs
import Verif.Props.Regs
import Verif.Release
import Verif.Props.Release
import Verif.Request
import Verif.Props.Request
import Verif.Props.Reset
import Verif.Props.ResetHost
import Verif.ResetTool
import Verif.Lemmas.ResetTool
import Verif.Props.ResetTool
import Verif.Resetd
import Verif.Lemmas.Resetd
import Verif.Props.Resetd
import Verif.Resource
import Verif.Lemmas.Resource
import Verif.Props.Resource
import Verif.Props.ResourceMore
import Verif.Rindex
import Verif.Lemmas.Rindex
import Verif.Props.Rindex
import Verif.Rv
import Verif.Scripts
import Verif.Lemmas.Scripts
import Verif.Props.Scripts
import Verif.Sectors
import Verif.Props.Sectors
import Verif.Shutdown
import Verif.Lemmas.Shutdown
import Verif.Props.Shutdown
import Verif.Single
import Verif.Props.Single
import Verif.SizeFlags
import Verif.Props.SizeFlags
import Verif.Status
import Verif.Lemmas.Status
import Verif.Props.Status
import Verif.Props.StatusHosts
import Verif.Props.StatusMore
import Verif.Lemmas.StatusSort
import Verif.Strings
import Verif.Props.Strings
import Verif.SyncIo
import Verif.Lemmas.SyncIo
import Verif.Props.SyncIo
import Verif.Timing
import Verif.Props.Timing
import Verif.Used
import Verif.Lemmas.Used
import Verif.Props.Used
import Verif.Util
import Verif.Verify
import Verif.Props.Verify
import Verif.Wdmd
import Verif.Props.Wdmd
import Verif.Wire
import Verif.Props.Wire
