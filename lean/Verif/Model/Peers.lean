import Verif.Model.Strings

/-!
# Model of `domain/peers`
-/

namespace Verif.Peers

/-- `domain/peers/peer.go:5-9`. The delimiter `dc :: ds` is never empty (an empty delimiter is not modelled). -/
structure Peer where
  host : Str
  port : UInt64
  dc : UInt8
  ds : Str
  deriving DecidableEq

/-- `domain/peers/peer.go:36-38`, `String`. -/
def Peer.toStr (p : Peer) : Str := p.host ++ (p.dc :: p.ds) ++ itoaNat p.port.toNat

/-- `domain/peers/peer_builder.go:10-15`. -/
structure PeerBuilder where
  dc : UInt8
  ds : Str
  host : Str
  port : Option UInt64
  str : Str

/-- `domain/peers/peer_builder.go:73-83`: the second half of `Now`. -/
def finish (b : PeerBuilder) : Out Peer :=
  if b.host = [] then .err
  else match b.port with
    | none => .err
    | some p => .ok ⟨b.host, p, b.dc, b.ds⟩

/-- `domain/peers/peer_builder.go:56-83`, `Now`: the text, if there is one, wins over host and port; `uint(portInt)`
wraps negative numbers. -/
def PeerBuilder.now (b : PeerBuilder) : Out Peer :=
  if b.str ≠ [] then
    match splitSep b.dc b.ds b.str with
    | [host, port] => do
      let n ← atoi port
      finish { b with port := some (UInt64.ofInt n), host := host }
    | _ => .err
  else finish b

/-- `domain/peers/builder.go:31-41` (`Now`). -/
def peersNow (list : Option (List Peer)) : Out (List Peer) :=
  match list with
  | none => .err
  | some [] => .err
  | some l => .ok l

end Verif.Peers
