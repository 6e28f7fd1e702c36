import Verif.CStr
import Verif.CStrLemmas
import Verif.Cond
import Verif.CondLemmas
import Verif.Props.Cond
import Verif.Sup.Types
import Verif.Sup.Model
import Verif.Sup.Prim
import Verif.Sup.Refine
import Verif.Sup.Eqs
import Verif.Sup.Ord
import Verif.Sup.RefineSm
import Verif.Sup.RefineEv
import Verif.Sup.Inv
import Verif.Sup.Hist
import Verif.Sup.Demo
import Verif.Sup.View
import Verif.Sup.Kids
import Verif.Props.Start
import Verif.Sup.Proc
import Verif.Props.Proc
import Verif.Sup.Later
import Verif.Props.Stop
import Verif.Sup.Mine
import Verif.Sup.CrashSpec
import Verif.Sup.Crash
import Verif.Props.Crash
import Verif.Runlevels
import Verif.Props.Runlevels
import Verif.Props.Util
import Verif.Props.Log
import Verif.Props.PidFile
import Verif.Props.CondParse
import Verif.Props.Conf
import Verif.Props.Registry
import Verif.Props.Jobs
import Verif.Props.Devmon
import Verif.Props.Cgroup
import Verif.Props.Exec
import Verif.Sup.Esc
import Verif.Props.Escalate
import Verif.Sup.Freeze
import Verif.Sup.Ctl
import Verif.Sup.Levels
import Verif.Sup.Tomb
import Verif.Props.Freeze
import Verif.Sup.Paths
import Verif.Sup.Pub
import Verif.Sup.Publish
import Verif.Sup.Exit
import Verif.Props.Status
import Verif.Props.Levels
import Verif.Api
import Verif.Props.Api
import Verif.Gc
import Verif.Line
import Verif.LineLemmas
import Verif.Props.Line
import Verif.Props.LineArgs
import Verif.Props.LineSafe
import Verif.Props.LineReload
import Verif.Props.LineMeaning
import Verif.Props.Gc
import Verif.Sup.Reload
import Verif.Sup.ReloadFn
import Verif.Props.Reload
import Verif.Sup.Settle
import Verif.Sup.Quiet
import Verif.Props.Quiet
import Verif.Sup.Tomb
import Verif.Props.Free
import Verif.Sup.Paths
import Verif.Sup.Pub
import Verif.Sup.Publish
import Verif.Sup.Exit
import Verif.Props.Status
import Verif.Netlink
import Verif.Props.Netlink
import Verif.Rotate
import Verif.Props.Rotate
import Verif.Tmpfiles
import Verif.Props.Tmpfiles
import Verif.Changes
import Verif.Props.Changes
import Verif.Boot
import Verif.Props.Boot
import Verif.Serv
import Verif.Props.Serv
import Verif.Sup.Await
import Verif.Props.Comeback
import Verif.Sup.Nest
import Verif.Sup.NestEv
import Verif.Sup.NestFree
import Verif.Props.Nest
import Verif.Sup.Ends
import Verif.Sup.EndsEv
import Verif.Sup.Limit
import Verif.Props.Ends
import Verif.Props.Whole
import Verif.Runparts
import Verif.Props.Runparts
import Verif.Files
import Verif.Props.Files
import Verif.Umount
import Verif.Props.Umount
import Verif.Kevent
import Verif.Props.Kevent
import Verif.Down
import Verif.Props.Down
import Verif.Reap
import Verif.Props.Reap
import Verif.Tty
import Verif.Props.Tty
import Verif.Plugin
import Verif.Props.Plugin
import Verif.Sulogin
import Verif.Props.Sulogin
import Verif.Mounts
import Verif.Props.Mounts
import Verif.Initctl
import Verif.Props.Initctl
import Verif.Json
import Verif.Props.Json
import Verif.UserCond
import Verif.Props.UserCond
import Verif.Getty
import Verif.Props.Getty
import Verif.Environ
import Verif.Props.Environ
import Verif.Priv
import Verif.Props.Priv
import Verif.Bootclean
import Verif.Props.Bootclean
import Verif.Rtc
import Verif.Props.Rtc
import Verif.Seed
import Verif.Props.Seed
import Verif.Notify
import Verif.Props.Notify
import Verif.Modload
import Verif.Props.Modload
import Verif.Output
import Verif.Props.Output
import Verif.Cgset
import Verif.Props.Cgset
import Verif.Watchdog
import Verif.Props.Watchdog
import Verif.Utmp
import Verif.Props.Utmp
import Verif.Launch
import Verif.Props.Launch
import Verif.Iter
import Verif.Props.Iter
import Verif.Coldplug
import Verif.Props.Coldplug
import Verif.Hotplug
import Verif.Props.Hotplug
import Verif.Hostname
import Verif.Props.Hostname
import Verif.Sysctl
import Verif.Props.Sysctl
import Verif.Console
import Verif.Props.Console
import Verif.Telinit
import Verif.Props.Telinit
import Verif.Syscond
import Verif.Props.Syscond
import Verif.Devcond
import Verif.Props.Devcond
import Verif.Pidwatch
import Verif.Props.Pidwatch
import Verif.Logmsg
import Verif.Props.Logmsg
import Verif.Wdhello
import Verif.Props.Wdhello
import Verif.Postscript
import Verif.Props.Postscript
import Verif.Pidnews
import Verif.Props.Pidnews
import Verif.Netlevel
import Verif.Props.Netlevel
import Verif.Cmdout
import Verif.Props.Cmdout
import Verif.Statusline
import Verif.Props.Statusline
import Verif.Execorder
import Verif.Props.Execorder
import Verif.Sizes
import Verif.Props.Sizes
import Verif.Top
import Verif.Props.Top
import Verif.Levelstr
import Verif.Props.Levelstr
import Verif.Kmod
import Verif.Props.Kmod
import Verif.Cgtree
import Verif.Props.Cgtree
import Verif.Cgconf
import Verif.Props.Cgconf
import Verif.Initrc
import Verif.Props.Initrc
import Verif.Lscols
import Verif.Props.Lscols
import Verif.Swap
import Verif.Props.Swap
import Verif.Heading
import Verif.Props.Heading
