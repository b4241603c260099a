import Verif.Config.Exec

/-!
# Shell commands (src/shell.c)

Which commands fastd waits for.
-/

namespace Fastd.Config.Shell

open Fastd.Config (Bytes)
open Fastd.Config.Gram
open Fastd.Config.Exec

/-- Where commands of peer groups are executed -/
inductive Occasion
  /-- The interface of all peers is created / destroyed (src/fastd.c:184-197) -/
  | ifaceUp | ifaceDown
  /-- The interface of a peer is created when the peer is set up (src/peer.c:417-419), destroyed when the peer is deleted (src/peer.c:480-482) -/
  | peerUp | peerDown
  /-- The interface of a peer is created when a connection is established (src/peer.c:852-867), destroyed when it ends or is replaced
  (src/peer.c:323-333, 833-850) -/
  | sessionUp | sessionDown
  /-- src/protocols/ec25519_fhmqvc/handshake.c:489-494 -/
  | connect
  /-- src/peer.c:113-117, 119-124 -/
  | establish | disestablish
  /-- src/verify.c:89-132 -/
  | verify
deriving DecidableEq

/-- The command that is executed -/
def Occasion.ev : Occasion → Ev
  | .ifaceUp | .peerUp | .sessionUp => .up
  | .ifaceDown | .peerDown | .sessionDown => .down
  | .connect => .connect
  | .establish => .establish
  | .disestablish => .disestablish
  | .verify => .verify

/-- The parameter `sync` of `fastd_peer_exec_shell_command` (src/peer.c:87-99), or the call of `fastd_shell_command_exec_sync` -/
def Occasion.forced : Occasion → Bool
  | .ifaceUp | .ifaceDown | .peerUp | .peerDown => true
  | _ => false

/-- Whether the main thread waits for the end of the command: `fastd_shell_command_exec_sync` does, `fastd_shell_command_exec` depends on the command
(src/shell.c:124-178); `fastd_verify_peer` starts a thread for commands that are not synchronous (src/verify.c:98-131). -/
def waits (o : Occasion) (c : Cmd) : Bool := o.forced || c.sync

/-- The command of a group for an event; `on verify` belongs to the configuration. -/
def command (c : Conf) (g : Group) : Ev → Option Cmd
  | .up => g.onUp
  | .down => g.onDown
  | .connect => g.onConnect
  | .establish => g.onEstablish
  | .disestablish => g.onDisestablish
  | .verify => c.onVerify

end Fastd.Config.Shell
