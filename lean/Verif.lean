import Verif.Async.Lemmas
import Verif.Async.Model
import Verif.Basic
import Verif.Buffer.Buf
import Verif.Buffer.Path
import Verif.Buffer.PathLemmas
import Verif.Buffer.Slice
import Verif.Config.Caps
import Verif.Config.Check
import Verif.Config.CheckLemmas
import Verif.Config.Exec
import Verif.Config.ExecConf
import Verif.Config.ExecLemmas
import Verif.Config.ExecPeer
import Verif.Config.Grammar
import Verif.Config.Iface
import Verif.Config.Keywords
import Verif.Config.Lex
import Verif.Config.MethodNames
import Verif.Config.Methods
import Verif.Config.Options
import Verif.Config.OptionsLemmas
import Verif.Config.Parse
import Verif.Config.Shell
import Verif.Config.Tree
import Verif.Crypto.Ghash
import Verif.Crypto.GhashClmul
import Verif.Crypto.SalsaMachine
import Verif.Crypto.SalsaMain
import Verif.Crypto.SalsaMem
import Verif.Crypto.SalsaOut
import Verif.Crypto.SalsaRun
import Verif.Crypto.SalsaVec
import Verif.Crypto.SalsaX86
import Verif.Crypto.SalsaX86Chunk
import Verif.Crypto.SalsaX86Machine
import Verif.Crypto.SalsaX86Main
import Verif.Crypto.SalsaX86Out
import Verif.Crypto.SalsaX86Run
import Verif.Crypto.SalsaXmm
import Verif.Crypto.Select
import Verif.Crypto.Sha256
import Verif.Crypto.Sha256Lemmas
import Verif.Crypto.Uhash
import Verif.Crypto.Util
import Verif.Daemon.AddSpec
import Verif.Daemon.Addr
import Verif.Daemon.AddrSpec
import Verif.Daemon.Backoff
import Verif.Daemon.ConnectPkt
import Verif.Daemon.ConnectRecv
import Verif.Daemon.ConnectSpec
import Verif.Daemon.ConnectSteps
import Verif.Daemon.ConnectTask
import Verif.Daemon.Demo
import Verif.Daemon.DynSpec
import Verif.Daemon.EthLemmas
import Verif.Daemon.Events
import Verif.Daemon.EventsSpec
import Verif.Daemon.ForwardSpec
import Verif.Daemon.HandleSpec
import Verif.Daemon.HashTable
import Verif.Daemon.History
import Verif.Daemon.Hooks
import Verif.Daemon.HsSpec
import Verif.Daemon.HtLemmas
import Verif.Daemon.Inv
import Verif.Daemon.InvLemmas
import Verif.Daemon.KeysSpec
import Verif.Daemon.LogSpec
import Verif.Daemon.Logic
import Verif.Daemon.PayloadSpec
import Verif.Daemon.PeerTask
import Verif.Daemon.Peers
import Verif.Daemon.PeersSpec
import Verif.Daemon.Proto
import Verif.Daemon.ProtoSpec
import Verif.Daemon.Real
import Verif.Daemon.RecvSpec
import Verif.Daemon.ReloadSpec
import Verif.Daemon.ResetSpec
import Verif.Daemon.Send
import Verif.Daemon.SendSpec
import Verif.Daemon.SessSpec
import Verif.Daemon.Shutdown
import Verif.Daemon.SinceSpec
import Verif.Daemon.State
import Verif.Daemon.Stats
import Verif.Daemon.Status
import Verif.Daemon.StatusSpec
import Verif.Daemon.StepSpec
import Verif.Daemon.TaskLoop
import Verif.Daemon.TaskSpec
import Verif.Daemon.Trail
import Verif.Daemon.Verify
import Verif.Daemon.VerifySpec
import Verif.Data.BSearch
import Verif.Data.Vector
import Verif.Handshake.Codec
import Verif.Handshake.CodecLemmas
import Verif.Handshake.Packet
import Verif.Log.Format
import Verif.Log.Sink
import Verif.Main.Life
import Verif.Main.LifeLemmas
import Verif.Main.Notify
import Verif.Main.Random
import Verif.Main.Signals
import Verif.Main.SignalsInv
import Verif.Main.StatusSock
import Verif.Method.Aead
import Verif.Method.AeadLemmas
import Verif.Method.Common
import Verif.Method.CommonLemmas
import Verif.Method.Poly1305
import Verif.Method.Suite
import Verif.Method.WindowLemmas
import Verif.Net.Android
import Verif.Net.PeerIface
import Verif.Net.PktInfo
import Verif.Net.PktInfoLemmas
import Verif.Net.Socket
import Verif.Net.SocketLemmas
import Verif.Net.Tun
import Verif.Net.TunBsd
import Verif.Net.TunBsdLemmas
import Verif.Net.TunLemmas
import Verif.Offload.Answer
import Verif.Offload.Build
import Verif.Offload.Decode
import Verif.Offload.Init
import Verif.Offload.L2tp
import Verif.Offload.Netlink
import Verif.Offload.Nl
import Verif.Offload.Parse
import Verif.Offload.Reqs
import Verif.Offload.Session
import Verif.Offload.SessionInit
import Verif.Poll.Model
import Verif.Props.Abort
import Verif.Props.Addr
import Verif.Props.Aead
import Verif.Props.Android
import Verif.Props.Approval
import Verif.Props.Async
import Verif.Props.Backoff
import Verif.Props.Buffer
import Verif.Props.Caps
import Verif.Props.Children
import Verif.Props.Conf
import Verif.Props.Connect
import Verif.Props.CryptoUtil
import Verif.Props.Deliver
import Verif.Props.EndToEnd
import Verif.Props.Fhmqvc
import Verif.Props.Forward
import Verif.Props.Ghash
import Verif.Props.GhashClmul
import Verif.Props.Grammar
import Verif.Props.Handshake
import Verif.Props.Iface
import Verif.Props.Keepalive
import Verif.Props.KeyCmd
import Verif.Props.KeyStream
import Verif.Props.Keys
import Verif.Props.Keywords
import Verif.Props.L2tp
import Verif.Props.Lex
import Verif.Props.LexTok
import Verif.Props.Life
import Verif.Props.Log
import Verif.Props.LogSink
import Verif.Props.Loop
import Verif.Props.Mac
import Verif.Props.MethodNames
import Verif.Props.Methods
import Verif.Props.Nonce
import Verif.Props.Notify
import Verif.Props.Options
import Verif.Props.Own
import Verif.Props.Packets
import Verif.Props.Path
import Verif.Props.PeerIface
import Verif.Props.Peers
import Verif.Props.PktInfo
import Verif.Props.Poll
import Verif.Props.Poly1305
import Verif.Props.Random
import Verif.Props.Reload
import Verif.Props.Retry
import Verif.Props.Running
import Verif.Props.Salsa20
import Verif.Props.Salsa20X86
import Verif.Props.Select
import Verif.Props.Sessions
import Verif.Props.Sha256
import Verif.Props.ShellEnv
import Verif.Props.Shutdown
import Verif.Props.Signals
import Verif.Props.Since
import Verif.Props.Socket
import Verif.Props.Start
import Verif.Props.Stats
import Verif.Props.Status
import Verif.Props.StatusSock
import Verif.Props.Suite
import Verif.Props.Task
import Verif.Props.Timers
import Verif.Props.Tun
import Verif.Props.TunBsd
import Verif.Props.Tunnel
import Verif.Props.Uhash
import Verif.Props.Vector
import Verif.Props.Verify
import Verif.Props.Whole
import Verif.Protocol.Fhmqvc
import Verif.Protocol.KeyCmd
import Verif.Protocol.Keys
import Verif.Shell.Children
import Verif.Shell.Env
import Verif.Shell.EnvLemmas
import Verif.Spec.Aead
import Verif.Spec.Async
import Verif.Spec.Caps
import Verif.Spec.Cmsg
import Verif.Spec.Conf
import Verif.Spec.Fhmqvc
import Verif.Spec.Ghash
import Verif.Spec.Netlink
import Verif.Spec.Options
import Verif.Spec.Salsa20
import Verif.Spec.Sha256
import Verif.Spec.ShellEnv
import Verif.Spec.Signals
import Verif.Spec.Socket
import Verif.Spec.Start
import Verif.Spec.Status
import Verif.Spec.Suite
import Verif.Spec.Task
import Verif.Spec.Uhash
import Verif.Spec.Window
import Verif.Task.PQueue
import Verif.Task.PQueueLemmas
import Verif.Task.Tasks
import Verif.Task.TasksLemmas
