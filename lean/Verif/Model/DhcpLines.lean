import Verif.C.Basic
/-! # The lines the DHCP helper writes to the Wi-Fi daemon (`src/dhcp/dhcp.c`) -/
namespace Verif.P2p
open Verif.C

/-- `client_lease_fn`, `src/dhcp/dhcp.c:278-358`: the new `client_addr`, the packets written and whether the helper
quits. `addr` is the address of the lease, the lists are the values of its options, `flush` and `add` say whether the
interface could be configured. A failing allocation is not modelled. -/
def clientLease (old addr : Option (List Byte)) (subnet dns gateway : List (List Byte)) (flush add : Bool) :
    Option (List Byte) × List (List Byte) × Bool :=
  match addr with
  | none => (old, [], true)
  | some a =>
    let m := subnet.headD (bytes "24")
    let full := a ++ ch '/' :: m
    if old = some full then (old, [], false)
    else if flush = false ∨ add = false then (some full, [], true)
    else
      (some full,
        [ch 'L' :: ch ':' :: a, ch 'S' :: ch ':' :: m]
          ++ dns.head?.toList.map (fun d => ch 'D' :: ch ':' :: d)
          ++ gateway.head?.toList.map (fun d => ch 'G' :: ch ':' :: d),
        false)

/-- The packet written once the server runs, `src/dhcp/dhcp.c:692`. -/
def serverReady (addr : List Byte) : List Byte := ch 'L' :: ch ':' :: addr

/-- `server_event_fn`, `src/dhcp/dhcp.c:373-377`. -/
def serverEvent (mac ip : List Byte) : List Byte := ch 'R' :: ch ':' :: (mac ++ ch ' ' :: ip)

end Verif.P2p
