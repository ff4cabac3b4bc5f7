import Verif.Model.Wpas
/-!
# The requests sent to wpa_supplicant

Model of the functions of `src/wifi/wifid-supplicant.c` that ask wpa_supplicant for something, down to the
bytes handed to the socket.  Messages are those of `Model/Wpas`; allocations succeed (failing ones are the
subject of C65), the message is new and belongs to the connection, so `wpas_call_async` gets past its checks.
Undefined behaviour is `none`; a result is the return code and the datagram, if there is one.
-/
namespace Verif.Ask
open Verif.C Verif.Wpas

/-- Consecutive calls of `wpas_message_append`, each followed by `if (r < 0)` with an exit, as everywhere in
`src/wifi/wifid-supplicant.c`; one list of arguments per call. -/
def appends (m : Msg) : List (List Arg) → Int × Msg
  | [] => (0, m)
  | a :: t =>
    let r := append m a
    if r.1 < 0 then r else appends r.2 t

/-- A request is made, filled and passed to `wpas_call_async` (`src/shared/wpas.c:1200-1238`), which seals it
and queues it; `wpas__send` hands it to the socket later (`src/shared/wpas.c:1307-1330`). -/
def call (jk : Nat → Byte) (name : List Byte) (args : List (List Arg)) : Option (Int × Option (List Byte)) :=
  match newRequest name with
  | none => some (-EINVAL, none)
  | some m =>
    let r := appends m args
    if r.1 < 0 then some (r.1, none)
    else do
      let s ← sealMsg jk r.2
      if s.1 < 0 then some (s.1, none)
      else do
        let d ← wire s.2
        some (0, some d)

/-- `supplicant_set_friendly_name`, `src/wifi/wifid-supplicant.c:1947-1978`. -/
def setName (jk : Nat → Byte) (running : Bool) (name : Option (List Byte)) : Option (Int × Option (List Byte)) :=
  if running = false ∨ name = none ∨ name = some [] then some (-EINVAL, none)
  else call jk (bytes "SET") [[.str (some (bytes "device_name")), .str name]]

/-- The arguments of `WFD_SUBELEM_SET`: the second append is left out for an empty or absent value
(`shl_isempty`), `src/wifi/wifid-supplicant.c:1669-1681` and `1996-2004`. -/
def elementArgs (val : Option (List Byte)) : List (List Arg) :=
  [.str (some (bytes "0"))] :: (if val = none ∨ val = some [] then [] else [[.str val]])

/-- `supplicant_set_wfd_subelements`, `src/wifi/wifid-supplicant.c:1980-2018`. -/
def setElements (jk : Nat → Byte) (running : Bool) (val : Option (List Byte)) : Option (Int × Option (List Byte)) :=
  if running = false ∨ val = none then some (-EINVAL, none)
  else call jk (bytes "WFD_SUBELEM_SET") (elementArgs val)

/-- The request of `supplicant_set_wifi_display_fn`, `src/wifi/wifid-supplicant.c:1658-1692`: what a link was
given before wpa_supplicant was ready. -/
def initElements (jk : Nat → Byte) (hasWfd : Bool) (val : Option (List Byte)) : Option (List (List Byte)) :=
  if hasWfd = false then some []
  else do
    let r ← call jk (bytes "WFD_SUBELEM_SET") (elementArgs val)
    some r.2.toList

/-- Requests made one after the other, the first that fails ends the row (`goto error`). -/
def row (jk : Nat → Byte) : List (List Byte × List (List Arg)) → Option (List (List Byte))
  | [] => some []
  | q :: t => do
    let r ← call jk q.1 q.2
    if r.1 < 0 then some []
    else do
      let ds ← row jk t
      some (r.2.toList ++ ds)

/-- The requests of `supplicant_status_fn`, `src/wifi/wifid-supplicant.c:1720-1838`, in their order: `p2p` is
the `p2p_state` of the reply, `display` whether it has a `wifi_display`, `friendly` the name of the link. -/
def startup (jk : Nat → Byte) (p2p : Option (List Byte)) (display : Bool) (friendly : Option (List Byte)) :
    Option (List (List Byte)) :=
  if p2p = none ∨ p2p = some (bytes "DISABLED") then some []
  else row jk
    ([(bytes "SET", [[Arg.str (some (bytes "device_name")), .str (some (friendly.getD (bytes "Miracle")))]]),
      (bytes "P2P_SET", [[.str (some (bytes "disallow_freq")), .str (some (bytes "5180-5900"))]]),
      (bytes "P2P_PEER", [[.str (some (bytes "FIRST"))]])]
    ++ if display then [(bytes "SET", [[.str (some (bytes "wifi_display")), .str (some (bytes "1"))]])] else [])

/-- `supplicant_peer_connect`, `src/wifi/wifid-supplicant.c:740-811`, for a peer of a running supplicant
that is in no group, no other peer being connected to (the other cases are in `Model/P2p`): `mac` is its
address, `prov`, `pin` what the caller gave, `prov0`, `pin0` what the peer proposed. -/
def connect (jk : Nat → Byte) (mac : List Byte) (prov pin prov0 pin0 : Option (List Byte)) :
    Option (Int × Option (List Byte)) :=
  let prov := (prov.orElse fun _ => prov0).getD (bytes "pbc")
  let pin := pin.orElse fun _ => pin0
  if prov = bytes "pbc" then call jk (bytes "P2P_CONNECT") [[.str (some mac)], [.str (some (bytes "pbc"))]]
  else if prov = bytes "display" then
    if pin = none ∨ pin = some [] then some (-EINVAL, none)
    else call jk (bytes "P2P_CONNECT") [[.str (some mac)], [.str pin, .str (some (bytes "display"))]]
  else if prov = bytes "pin" then
    if pin = none ∨ pin = some [] then some (-EINVAL, none)
    else call jk (bytes "P2P_CONNECT") [[.str (some mac)], [.str pin, .str (some (bytes "pin"))]]
  else if prov = bytes "keypad" then
    if pin = none ∨ pin = some [] then some (-EINVAL, none)
    else call jk (bytes "P2P_CONNECT") [[.str (some mac)], [.str pin, .str (some (bytes "keypad"))]]
  else some (-EINVAL, none)

/-- The request of `supplicant_event_p2p_device_found`, `src/wifi/wifid-supplicant.c:967-985`. -/
def askPeer (jk : Nat → Byte) (mac : List Byte) : Option (Int × Option (List Byte)) :=
  call jk (bytes "P2P_PEER") [[.str (some mac)]]

/-- The request of `supplicant_init_p2p_peer_fn`, `src/wifi/wifid-supplicant.c:1596-1627`; `shl_strcat` is
the subject of C64. -/
def askNext (jk : Nat → Byte) (mac : List Byte) : Option (Int × Option (List Byte)) :=
  call jk (bytes "P2P_PEER") [[.str (some (bytes "NEXT-" ++ mac))]]

/-- The request of `supplicant_group_free`, `src/wifi/wifid-supplicant.c:181-198`. -/
def removeGroup (jk : Nat → Byte) (ifname : List Byte) : Option (Int × Option (List Byte)) :=
  call jk (bytes "P2P_GROUP_REMOVE") [[.str (some ifname)]]

/-- `supplicant_p2p_start_scan`, `src/wifi/wifid-supplicant.c:2020-2064`. -/
def startScan (jk : Nat → Byte) (running hasP2p : Bool) : Option (Int × Option (List Byte)) :=
  if running = false ∨ hasP2p = false then some (-EINVAL, none) else call jk (bytes "P2P_FIND") []

/-- `supplicant_p2p_stop_scan`, `src/wifi/wifid-supplicant.c:2066-2094` (the result is logged only). -/
def stopScan (jk : Nat → Byte) (running hasP2p : Bool) : Option (Int × Option (List Byte)) :=
  if running = false ∨ hasP2p = false then some (-EINVAL, none) else call jk (bytes "P2P_STOP_FIND") []

end Verif.Ask
