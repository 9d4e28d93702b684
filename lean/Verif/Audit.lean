import Lean
import Verif.Attr.AttrModel
import Verif.Attr.AttrProps
import Verif.BufRead.Model
import Verif.BufRead.Props
import Verif.Conc.Basic
import Verif.Crypt.Lemmas
import Verif.Crypt.Model
import Verif.Crypt.Props
import Verif.Ctype.CaseProps
import Verif.Ctype.Model
import Verif.Ctype.Props
import Verif.Cwd.LinkProps
import Verif.Cwd.Model
import Verif.Cwd.Props
import Verif.Dir.DirModel
import Verif.Dir.DirProps
import Verif.Dir.GetdentsModel
import Verif.Dir.GetdentsProps
import Verif.Dir.ScanModel
import Verif.Dir.ScanProps
import Verif.Dns.DnsModel
import Verif.Dns.DnsProps
import Verif.Exec.ExecModel
import Verif.Exec.ExecProps
import Verif.Exec.ShebangModel
import Verif.Exec.ShebangProps
import Verif.Exec.SpawnModel
import Verif.Exec.SpawnProps
import Verif.Exec.StartModel
import Verif.Exec.StartProps
import Verif.Fd.CallModel
import Verif.Fd.CallProps
import Verif.Fd.TableLemmas
import Verif.Fd.TableModel
import Verif.Fd.TableProps
import Verif.FileOps.Model
import Verif.FileOps.Props
import Verif.Float.Examples
import Verif.Float.ExpProps
import Verif.Float.Lemmas
import Verif.Float.Model
import Verif.Float.Props
import Verif.Fmtmsg.Model
import Verif.Fmtmsg.Props
import Verif.Fnmatch.FnmatchModel
import Verif.Fnmatch.FnmatchProps
import Verif.Getopt.GetoptModel
import Verif.Getopt.GetoptProps
import Verif.Getopt.SuboptModel
import Verif.Getopt.SuboptProps
import Verif.Glob.GlobModel
import Verif.Glob.GlobProps
import Verif.Handlers.HandlerModel
import Verif.Handlers.HandlerProps
import Verif.Hosts.Model
import Verif.Hosts.Props
import Verif.Ids.Model
import Verif.Ids.Props
import Verif.IoRead.Model
import Verif.IoRead.Props
import Verif.Ioctl.Model
import Verif.Ioctl.Props
import Verif.Ldso.CloseExamples
import Verif.Ldso.CloseProps
import Verif.Ldso.LinkModel
import Verif.Ldso.LoadProofs
import Verif.Ldso.LookupExamples
import Verif.Ldso.LookupProps
import Verif.Ldso.MapModel
import Verif.Ldso.OrderProps
import Verif.Ldso.RelrProps
import Verif.Ldso.SearchProps
import Verif.Ldso.SegProps
import Verif.Ldso.TlsBlockProps
import Verif.Ldso.TlsExamples
import Verif.Ldso.TlsModel
import Verif.Ldso.TlsProofs
import Verif.Ldso.UnloadProofs
import Verif.Locale.Model
import Verif.Locale.Props
import Verif.Lookup.AddrInfoModel
import Verif.Lookup.AddrInfoProps
import Verif.Lookup.Model
import Verif.Lookup.Props
import Verif.Mem.Basic
import Verif.Messages.Model
import Verif.Messages.Props
import Verif.Messages.Spec
import Verif.Messages.Tables
import Verif.Misc.Model
import Verif.Misc.Props
import Verif.Mman.MapModel
import Verif.Mman.MapProps
import Verif.Mman.Model
import Verif.Mman.Props
import Verif.Modes.Model
import Verif.Modes.Props
import Verif.Monetary.Model
import Verif.Monetary.Props
import Verif.Net.EndianModel
import Verif.Net.EndianProps
import Verif.Net.Inet6Model
import Verif.Net.Inet6Props
import Verif.Net.InetModel
import Verif.Net.InetProps
import Verif.Netdb.EntModel
import Verif.Netdb.EntProps
import Verif.Netdb.RlbModel
import Verif.Netdb.RlbProps
import Verif.NulStr.Model
import Verif.NulStr.Props
import Verif.Path.LibgenModel
import Verif.Path.LibgenProps
import Verif.Poll.PollModel
import Verif.Poll.PollProps
import Verif.Poll.SelectModel
import Verif.Poll.SelectProps
import Verif.Pty.Model
import Verif.Pty.Props
import Verif.Reclock.Model
import Verif.Reclock.Props
import Verif.Regex.Model
import Verif.Regex.Props
import Verif.Ring.Model
import Verif.Ring.Props
import Verif.Scanf.MatchProps
import Verif.Scanf.ScanfModel
import Verif.Scanf.ScanfProps
import Verif.Shm.Model
import Verif.Shm.Props
import Verif.Signal.ActionModel
import Verif.Signal.ActionProps
import Verif.Signal.MaskModel
import Verif.Signal.MaskProps
import Verif.Signal.SendModel
import Verif.Signal.SendProps
import Verif.Signal.SigsetModel
import Verif.Signal.SigsetProps
import Verif.Signal.SysvModel
import Verif.Signal.SysvProps
import Verif.Signal.WaitModel
import Verif.Signal.WaitProps
import Verif.Socket.AddrModel
import Verif.Socket.AddrProps
import Verif.Socket.CallModel
import Verif.Socket.CallProps
import Verif.Socket.MsgModel
import Verif.Socket.MsgProps
import Verif.Stdio.FileProps
import Verif.Stdio.FlagProps
import Verif.Stdio.OpenModel
import Verif.Stdio.OpenProps
import Verif.Stdio.PrintfConv
import Verif.Stdio.PrintfModel
import Verif.Stdio.PrintfParse
import Verif.Stdio.PrintfProps
import Verif.Stdio.PrintfRun
import Verif.Stdio.PrintfSpec
import Verif.Stdio.ReadLemmas
import Verif.Stdio.ReadProps
import Verif.Stdio.SeekProps
import Verif.Stdio.SnprintfProps
import Verif.Stdio.StreamModel
import Verif.Stdio.WordModel
import Verif.Stdio.WordProps
import Verif.Stdio.WriteLemmas
import Verif.Stdio.WriteProps
import Verif.Stdlib.AllocModel
import Verif.Stdlib.AllocProps
import Verif.Stdlib.EnvModel
import Verif.Stdlib.EnvProps
import Verif.Stdlib.ExitModel
import Verif.Stdlib.ExitProps
import Verif.Stdlib.HeapProps
import Verif.Stdlib.NumberSpec
import Verif.Stdlib.Radix64Model
import Verif.Stdlib.Radix64Props
import Verif.Stdlib.Rand48Model
import Verif.Stdlib.Rand48Props
import Verif.Stdlib.RandomModel
import Verif.Stdlib.RandomProps
import Verif.Stdlib.SortModel
import Verif.Stdlib.SortProps
import Verif.Stdlib.StrtolModel
import Verif.Stdlib.StrtolProps
import Verif.Stdlib.WcstolModel
import Verif.Stdlib.WcstolProps
import Verif.Str.MemModel
import Verif.Str.MemProps
import Verif.Str.StrCopyProps
import Verif.Str.StrLemmas
import Verif.Str.StrModel
import Verif.Str.StrSearchProps
import Verif.Str.StrTokProps
import Verif.Str.WideModel
import Verif.Str.WideProps
import Verif.Strtod.Model
import Verif.Strtod.Props
import Verif.Sync.BarrierModel
import Verif.Sync.BarrierProps
import Verif.Sync.CancelModel
import Verif.Sync.CancelProps
import Verif.Sync.CondModel
import Verif.Sync.CondProps
import Verif.Sync.JoinModel
import Verif.Sync.JoinProps
import Verif.Sync.MutexModel
import Verif.Sync.MutexProps
import Verif.Sync.OnceModel
import Verif.Sync.OnceProps
import Verif.Sync.PMutexInv
import Verif.Sync.PMutexModel
import Verif.Sync.PMutexProps
import Verif.Sync.RwLockInv
import Verif.Sync.RwLockModel
import Verif.Sync.RwLockProps
import Verif.Sync.SemaphoreModel
import Verif.Sync.SemaphoreProps
import Verif.Sync.SpinModel
import Verif.Sync.SpinProps
import Verif.Sysconf.Model
import Verif.Sysconf.Props
import Verif.Syslog.Model
import Verif.Syslog.Props
import Verif.Temp.Lemmas
import Verif.Temp.Model
import Verif.Temp.Props
import Verif.Thread.TlsModel
import Verif.Thread.TlsProps
import Verif.Threads.C11Model
import Verif.Threads.C11Props
import Verif.Threads.CreateModel
import Verif.Threads.CreateProps
import Verif.Time.AsctimeProps
import Verif.Time.CalendarModel
import Verif.Time.CalendarProps
import Verif.Time.FormatLemmas
import Verif.Time.FormatModel
import Verif.Time.RoundtripProps
import Verif.Time.StrftimeProps
import Verif.Time.StrptimeModel
import Verif.Time.StrptimeProps
import Verif.Time.TimespecModel
import Verif.Time.TimespecProps
import Verif.Time.TzModel
import Verif.Time.TzProps
import Verif.Timer.Model
import Verif.Timer.Props
import Verif.Uio.UioModel
import Verif.Uio.UioProps
import Verif.Uname.Model
import Verif.Uname.Props
import Verif.Unistd.Model
import Verif.Unistd.Props
import Verif.Users.GroupsModel
import Verif.Users.GroupsProps
import Verif.Users.GrpExamples
import Verif.Users.GrpModel
import Verif.Users.GrpProps
import Verif.Users.PwdExamples
import Verif.Users.PwdModel
import Verif.Users.PwdProps
import Verif.Users.ShadowModel
import Verif.Users.ShadowProps
import Verif.Util.CVecModel
import Verif.Util.CVecProps
import Verif.Wait.Model
import Verif.Wait.Props
import Verif.Wchar.MbsProps
import Verif.Wchar.Utf8Model
import Verif.Wchar.Utf8Props
import Verif.Wctype.Model
import Verif.Wctype.Props
import Verif.Wctype.Tables
import Verif.Wstdio.Model
import Verif.Wstdio.Props

/-!
# Axiom audit

Fails to compile if any theorem of this project depends on an axiom other than Lean's three standard ones.
-/

open Lean Elab Command in
run_cmd do
  let env ← getEnv
  let allowed := [``propext, ``Classical.choice, ``Quot.sound]
  let mut n := 0
  for (c, i) in env.constants.map₁.toList do
    if (`Verif).isPrefixOf c && i matches .thmInfo _ then
      let ax ← liftCoreM (collectAxioms c)
      for a in ax do
        unless allowed.contains a do
          throwError "{c} depends on {a}"
      n := n + 1
  logInfo m!"{n} theorems audited"
