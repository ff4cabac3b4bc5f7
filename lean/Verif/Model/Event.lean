import Verif.Model.Wpas
import Verif.Model.P2p
/-! # Model of how events of wpa_supplicant are turned into what the daemon does (`src/wifi/wifid-supplicant.c`)

`Model/Wpas` turns a datagram into a message, `Model/P2p` says what each operation does to the peers and groups.
This file is what lies between: which event leads to which operation with which arguments. -/
namespace Verif.Event
open Verif.C
open Verif.Wpas (Msg Ty Val dictRead argvRead readBasic)

/-- What the environment decides while a handler runs: the addresses that sort before a new peer, whether memory can
be had, whether the helper can be started and watched (arguments of the operations of `Model/P2p`). -/
structure Env where
  order : List Nat := []
  mem : Bool := true
  spawn : Bool := true
  watch : Bool := true

/-- What `supplicant_parse_peer` takes from a message, `src/wifi/wifid-supplicant.c:848-919`. -/
structure Info where
  mac : List Byte
  name : Option (List Byte)
  wfd : Option (List Byte)
  deriving DecidableEq, Repr

/-- What handling a message amounts to.  `found i ask`: `supplicant_parse_peer` runs with `i`, then `P2P_PEER ask` is
sent on the global socket. -/
inductive Act
  | nothing
  | scanStopped
  | report (i : Info)
  | found (i : Info) (ask : List Byte)
  | op (o : P2p.Op)
  deriving DecidableEq, Repr

/-- A string argument: `none` = the read fails with a negative code; the outer `none` is undefined behaviour. -/
def str (r : Option (Int × Option Val)) : Option (Option (List Byte)) :=
  match r with
  | none => none
  | some (e, v) =>
    if e < 0 then some none
    else match v with
      | some (.str t) => some (some t)
      | _ => none

/-- `wpas_message_dict_read(m, key, 's', ...)`. -/
def dict (m : Msg) (key : List Byte) : Option (Option (List Byte)) := str (dictRead m key .s)

/-- `wpas_message_argv_read(m, pos, 's', ...)`. -/
def argv (m : Msg) (pos : Nat) : Option (Option (List Byte)) := str (argvRead m pos .s)

/-- `wpas_message_read(m, "s", ...)`, the first argument that was not read yet. -/
def first (m : Msg) : Option (Option (List Byte)) := str ((readBasic m .s).map fun r => (r.1, r.2.2))

/-- Read, then go on if it was there; else the handler returns. -/
def need (r : Option (Option (List Byte))) (k : List Byte → Option Act) : Option Act :=
  match r with
  | none => none
  | some none => some .nothing
  | some (some t) => k t

/-- The first of two keys that is there: `src/wifi/wifid-supplicant.c:873-875` and `:889-915`. -/
def either (m : Msg) (k1 k2 : List Byte) : Option (Option (List Byte)) :=
  match dict m k1 with
  | none => none
  | some (some v) => some (some v)
  | some none => dict m k2

/-- `supplicant_parse_peer`, `src/wifi/wifid-supplicant.c:848-919`; `some none` = no address.  Copying the strings is
assumed to succeed; creating the peer is `P2p.S.parsePeer`.  The position after reading is not kept: nothing is read
from the message by position afterwards. -/
def parsePeer (m : Msg) : Option (Option Info) :=
  match first m with
  | none => none
  | some none => some none
  | some (some mac) =>
    match either m (bytes "device_name") (bytes "name") with
    | none => none
    | some name =>
      match either m (bytes "wfd_subelems") (bytes "wfd_dev_info") with
      | none => none
      | some wfd => some (some { mac := mac, name := name, wfd := wfd })

/-- `supplicant_event_p2p_device_found`, `src/wifi/wifid-supplicant.c:945-990`; sending the request is assumed to
succeed.  If there is no first argument `supplicant_parse_peer` does nothing and the request is sent all the same; as
an argument was found just before this is not reached. -/
def deviceFound (m : Msg) : Option Act :=
  need (dict m (bytes "p2p_dev_addr")) fun mac =>
    match parsePeer m with
    | none => none
    | some none => none
    | some (some i) => some (.found i mac)

/-- `supplicant_p2p_peer_fn`, `src/wifi/wifid-supplicant.c:932-943`, the answer to `P2P_PEER`. -/
def onReply (m : Msg) : Option Act :=
  if m.type = .reply ∧ m.raw = bytes "FAIL\n" ++ [0] then some .nothing
  else match parsePeer m with
    | none => none
    | some none => some .nothing
    | some (some i) => some (.report i)

/-- `supplicant_event_p2p_device_lost`, `src/wifi/wifid-supplicant.c:992-1014`. -/
def deviceLost (m : Msg) : Option Act :=
  need (dict m (bytes "p2p_dev_addr")) fun mac => some (.op (.lost mac))

/-- `supplicant_event_p2p_prov_disc_pbc_req`, `src/wifi/wifid-supplicant.c:1016-1048`. -/
def pbcReq (env : Env) (m : Msg) : Option Act :=
  need (dict m (bytes "p2p_dev_addr")) fun mac => some (.op (.provision mac (bytes "pbc") none env.mem))

/-- `supplicant_event_p2p_go_neg_request`, `src/wifi/wifid-supplicant.c:1050-1092`. -/
def goNegRequest (m : Msg) : Option Act :=
  need (first m) fun mac => some (.op (.negotiation mac))

/-- `supplicant_event_p2p_prov_disc_show_pin`, `src/wifi/wifid-supplicant.c:1094-1142`.  Between the two reads only the
peer is looked up. -/
def showPin (env : Env) (m : Msg) : Option Act :=
  need (dict m (bytes "p2p_dev_addr")) fun mac =>
    need (argv m 1) fun pin => some (.op (.provision mac (bytes "display") (some pin) env.mem))

/-- `supplicant_event_p2p_prov_disc_enter_pin`, `src/wifi/wifid-supplicant.c:1144-1176`. -/
def enterPin (env : Env) (m : Msg) : Option Act :=
  need (dict m (bytes "p2p_dev_addr")) fun mac => some (.op (.provision mac (bytes "pin") none env.mem))

/-- `supplicant_event_p2p_go_neg_success`, `src/wifi/wifid-supplicant.c:1178-1223`.  Between the two reads only the peer
is looked up. -/
def goNegSuccess (env : Env) (m : Msg) : Option Act :=
  need (dict m (bytes "peer_dev")) fun mac =>
    need (dict m (bytes "peer_iface")) fun sta => some (.op (.negotiated mac sta env.mem))

/-- `supplicant_event_p2p_group_started`, `src/wifi/wifid-supplicant.c:1225-1290`; the SSID is only logged. -/
def groupStarted (env : Env) (m : Msg) : Option Act :=
  need (dict m (bytes "go_dev_addr")) fun mac =>
    need (argv m 0) fun ifname =>
      need (argv m 1) fun go =>
        some (.op (.groupStarted mac ifname (go == bytes "GO") env.spawn env.watch))

/-- `supplicant_event_p2p_group_removed`, `src/wifi/wifid-supplicant.c:1292-1315`. -/
def groupRemoved (m : Msg) : Option Act :=
  need (argv m 0) fun ifname => some (.op (.groupRemoved ifname))

/-- `supplicant_event_ap_sta_connected`, `src/wifi/wifid-supplicant.c:1349-1410`. -/
def staConnected (env : Env) (m : Msg) : Option Act :=
  need (dict m (bytes "p2p_dev_addr")) fun mac =>
    need (argv m 0) fun sta => some (.op (.staConnected mac sta m.ifname env.mem))

/-- `supplicant_event_ap_sta_disconnected`, `src/wifi/wifid-supplicant.c:1412-1447`. -/
def staDisconnected (m : Msg) : Option Act :=
  need (dict m (bytes "p2p_dev_addr")) fun mac => some (.op (.staDisconnected mac))

/-- The ignored events, `src/wifi/wifid-supplicant.c:1461-1489`. -/
def ignored : List (List Byte) :=
  [bytes "CTRL-EVENT-SCAN-STARTED", bytes "CTRL-EVENT-SCAN-RESULTS", bytes "CTRL-EVENT-EAP-STARTED",
   bytes "CTRL-EVENT-EAP-PROPOSED-METHOD", bytes "CTRL-EVENT-EAP-FAILURE", bytes "CTRL-EVENT-BSS-REMOVED",
   bytes "CTRL-EVENT-BSS-ADDED", bytes "CTRL-EVENT-CONNECTED", bytes "CTRL-EVENT-DISCONNECTED", bytes "WPS-PBC-ACTIVE",
   bytes "WPS-PBC-DISABLE", bytes "WPS-AP-AVAILABLE-PBC", bytes "WPS-AP-AVAILABLE-AUTH", bytes "WPS-AP-AVAILABLE-PIN",
   bytes "CTRL-EVENT-EAP-STATUS", bytes "CTRL-EVENT-EAP-METHOD", bytes "WPS-CRED-RECEIVED", bytes "WPS-AP-AVAILABLE",
   bytes "WPS-REG-SUCCESS", bytes "WPS-SUCCESS", bytes "WPS-ENROLLEE-SEEN", bytes "P2P-GROUP-FORMATION-SUCCESS",
   bytes "AP-ENABLED", bytes "SME:", bytes "WPA:", bytes "Trying",
   bytes "No network configuration found for the current AP", bytes "Associated"]

/-- The handlers, `src/wifi/wifid-supplicant.c:1491-1518`. -/
def table (env : Env) : List (List Byte × (Msg → Option Act)) :=
  [(bytes "P2P-FIND-STOPPED", fun _ => some .scanStopped),
   (bytes "P2P-DEVICE-FOUND", deviceFound),
   (bytes "P2P-DEVICE-LOST", deviceLost),
   (bytes "P2P-PROV-DISC-PBC-REQ", pbcReq env),
   (bytes "P2P-PROV-DISC-SHOW-PIN", showPin env),
   (bytes "P2P-PROV-DISC-ENTER-PIN", enterPin env),
   (bytes "P2P-GO-NEG-SUCCESS", goNegSuccess env),
   (bytes "P2P-GO-NEG-REQUEST", goNegRequest),
   (bytes "P2P-GROUP-STARTED", groupStarted env),
   (bytes "P2P-GROUP-REMOVED", groupRemoved),
   (bytes "P2P-GO-NEG-FAILURE", fun _ => some (.op .formationFailed)),
   (bytes "P2P-GROUP-FORMATION-FAILURE", fun _ => some (.op .formationFailed)),
   (bytes "AP-STA-CONNECTED", staConnected env),
   (bytes "AP-STA-DISCONNECTED", staDisconnected)]

/-- `supplicant_event`, `src/wifi/wifid-supplicant.c:1449-1527`: the chain of `strcmp`. -/
def onEvent (env : Env) (m : Msg) : Option Act :=
  if m.type ≠ .event then some .nothing
  else match m.name with
    | none => some .nothing
    | some name =>
      if name ∈ ignored then some .nothing
      else match (table env).lookup name with
        | none => some .nothing
        | some f => f m

/-- The two sockets to wpa_supplicant. -/
inductive Sock
  | dev
  | global
  deriving DecidableEq, Repr

/-- `supplicant_dev_fn` and `supplicant_global_fn`, `src/wifi/wifid-supplicant.c:2157-2199`, for a message; a hang-up
is not modelled here.  Messages are read as `wpas.c` does; replies go to the caller, not here (`Model/WpasBus`). -/
def onSocket (env : Env) (useDev : Bool) (k : Sock) (m : Msg) : Option Act :=
  match k with
  | .dev => onEvent env m
  | .global => if useDev && m.ifname.isSome then onEvent env m else some .nothing

/-- What the operation does to the peers and groups (`Model/P2p`).  A report also sets the name and the subelements
of the peer, which `Model/Told` follows; the end of a scan is not kept there. -/
def Act.run (env : Env) (s : P2p.S) : Act → Option P2p.S
  | .nothing => some s
  | .scanStopped => some s
  | .report i => s.step (.found i.mac env.order)
  | .found i _ => s.step (.found i.mac env.order)
  | .op o => s.step o

end Verif.Event
