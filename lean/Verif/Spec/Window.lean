import Verif.Method.Common

/-!
# Independent specification of a session's packet counters

Numbers instead of bytes, a list of all numbers seen instead of a bitmap. Nothing here refers
to the functions of the model; only the event, observation and nonce *types* are shared.
-/

namespace Fastd.Method.Spec

/-- An ideal session. `next` is the number of the next packet to send, `newest` the highest
number received, `seen` all numbers received (the number below the first one the other side
uses counts as seen), `deadline` the time until which late packets are welcome. -/
structure Ideal where
  initiator : Bool
  next : Nat
  validTill : Int
  newest : Nat
  seen : List Nat
  deadline : Int

/-- The initiator sends 3, 5, 7, … and expects 2, 4, 6, …; the responder the other way round. -/
def Ideal.fresh (initiator : Bool) (t0 : Int) : Ideal where
  initiator := initiator
  next := if initiator then 3 else 2
  validTill := t0 + 3600000
  newest := if initiator then 0 else 1
  seen := [if initiator then 0 else 1]
  deadline := 0

/-- One hour lifetime, and the counter must not come near 2^48. -/
def Ideal.live (w : Ideal) (now : Int) : Bool :=
  decide (now < w.validTill) && decide (w.next < 2 ^ 48 - 2 ^ 32)

/-- What an ideal receiver says about packet `n` arriving at time `now`: newer than everything
is in order; not newer is too late if the newest packet is 10 s old or if `n` is more than 64
packets (2 apart each) older than the newest; otherwise it is accepted iff not seen. -/
def Ideal.judge (w : Ideal) (now : Int) (n : Nat) : Verdict :=
  if w.live now = false then .rejected
  else if w.newest < n then .inOrder
  else if w.deadline ≤ now ∨ n + 2 * 64 < w.newest then .rejected
  else if n ∈ w.seen then .duplicate
  else .reordered

def Ideal.step (w : Ideal) : Event → Obs × Ideal
  | .send now =>
    if w.live now then (.sent now (nonceOf w.next), { w with next := w.next + 2 })
    else (.notSent, w)
  | .receive now n =>
    (.received now n (w.judge now n.val),
      match w.judge now n.val with
      | .inOrder => { w with
          newest := n.val, seen := n.val :: w.seen, deadline := now + 10000 }
      | .reordered => { w with seen := n.val :: w.seen }
      | _ => w)
  | .supersede now => (.superseded now, { w with validTill := min w.validTill (now + 60000) })
where
  /-- Big endian encoding of a number in 6 bytes. -/
  nonceOf (v : Nat) : Nonce :=
    #v[.ofNat (v / 2 ^ 40), .ofNat (v / 2 ^ 32), .ofNat (v / 2 ^ 24), .ofNat (v / 2 ^ 16),
       .ofNat (v / 2 ^ 8), .ofNat v]

def Ideal.run (w : Ideal) : List Event → List Obs
  | [] => []
  | e :: es => (w.step e).1 :: Ideal.run (w.step e).2 es

end Fastd.Method.Spec
