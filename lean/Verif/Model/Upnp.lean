import Verif.Model.Http
import Verif.Model.Xml
/-! Finding routers and forwarding ports (utils/UpnpDiscovery.cpp, utils/UpnpPortMapping.cpp). -/

namespace Verif.Upnp
open Verif Bencode

/-! ### Where a router describes itself -/

/-- utils/UpnpDiscovery.cpp:11-16 `UrlParser`; the port is `none` while it has no value. -/
structure Url where
  protocol : List UInt8
  address : List UInt8
  port : Option Nat
  path : List UInt8
deriving DecidableEq, Repr

/-- `find_first_of`: any of the bytes, from a position on. -/
def findOf (cs l : List UInt8) (pos : Nat) : Option Nat := ((l.drop pos).findIdx? fun c => cs.contains c).map (· + pos)

/-- `substr`: throws behind the end, which nobody catches. -/
def substr (l : List UInt8) (pos n : Nat) : Res (List UInt8) := if pos ≤ l.length then .ok ((l.drop pos).take n) else .ub

/-- A difference of `size_t`. -/
def minus (a b : Nat) : Nat := (a + 18446744073709551616 - b) % 18446744073709551616

/-- utils/UpnpDiscovery.cpp:22-28: where the address begins, and the protocol. -/
def start (url : List UInt8) : Nat × List UInt8 :=
  match findOf (ascii "://") url 0 with
  | some p => (p + 3, url.take p)
  | none => (0, [])

/-- utils/UpnpDiscovery.cpp:33-36: the address. -/
def addressOf (url : List UInt8) (a : Nat) : Option Nat → Option Nat → Res (List UInt8)
  | some p, some q => substr url a (min p q - a)
  | some p, none => substr url a (p - a)
  | none, some q => substr url a (q - a)
  | none, none => substr url a url.length

/-- utils/UpnpDiscovery.cpp:38-49: the port; 16 bits are kept. -/
def portOf (url : List UInt8) : Option Nat → Option Nat → Res (Option Nat)
  | none, _ => .ok none
  | some p, some q => do
    let s ← substr url (p + 1) (minus q (p + 1))
    pure (some (Xml.strtoull s % 65536))
  | some p, none => do
    let s ← substr url (p + 1) url.length
    pure (some (Xml.strtoull s % 65536))

/-- utils/UpnpDiscovery.cpp:18-55, the constructor of `UrlParser`. -/
def parseUrl (url : List UInt8) : Res Url := do
  let a := start url
  let port := findOf (ascii ":") url a.1
  let path := findOf (ascii "/") url a.1
  let address ← addressOf url a.1 port path
  let p ← portOf url port path
  pure { protocol := a.2, address, port := p, path := match path with | some q => url.drop q | none => [] }

/-- utils/UpnpDiscovery.h:40-45 `UpnpLocation`; of the adapter (utils/NetAdaptersList.h:8-13) the two addresses. -/
structure Location where
  gateway : List UInt8
  clientIp : List UInt8
  port : Nat
  path : List UInt8
deriving DecidableEq, Repr

/-- utils/UpnpDiscovery.cpp:69-77: one location.  Using a port that has no value is undefined. -/
def location (gateway clientIp value : List UInt8) : Res (List Location) := do
  let u ← parseUrl value
  if u.address = [] then pure []
  else match u.port with
    | none => .ub
    | some p => pure (if p ≠ 0 ∧ gateway = u.address then [⟨gateway, clientIp, p, u.path⟩] else [])

/-- utils/UpnpDiscovery.cpp:65-79: the loop over the header. -/
def locations (gateway clientIp : List UInt8) : List (List UInt8 × List UInt8) → Res (List Location)
  | [] => .ok []
  | p :: ps => do
    let l ← if p.1 = ascii "LOCATION" then location gateway clientIp p.2 else pure []
    let r ← locations gateway clientIp ps
    pure (l ++ r)

/-- utils/UpnpDiscovery.cpp:215-226 and 63-82: a datagram for an adapter; what is added to the queue.  `n` and `after` as for
`Http.read`. -/
def onDatagram (n : Nat) (gateway clientIp data after : List UInt8) : Res (List Location) :=
  if data = [] then .ok []
  else do
    let i ← Http.read n data after
    if i.success then locations gateway clientIp i.params else pure []

/-- utils/UpnpDiscovery.cpp:118-122: what is asked for. -/
def rootRequest (l : Location) : List UInt8 :=
  ascii "GET " ++ l.path ++ ascii " HTTP/1.1\r\nUser-Agent: mtTorrent\r\nConnection: close\r\nHost: " ++ l.gateway ++ ascii ":" ++ dec l.port ++
    ascii "\r\nAccept: text/xml\r\n\r\n"

/-! ### What a router says about itself -/

/-- utils/UpnpDiscovery.h:17-25 `DeviceInfo`; the map of services as a list without equal types. -/
structure Device where
  name : List UInt8 := []
  gateway : List UInt8
  clientIp : List UInt8
  port : Nat
  services : List (List UInt8 × List UInt8) := []
deriving DecidableEq, Repr

/-- `services[type] = url`. -/
def setService (s : List (List UInt8 × List UInt8)) (type url : List UInt8) : List (List UInt8 × List UInt8) :=
  s.filter (fun x => x.1 ≠ type) ++ [(type, url)]

/-- `services[type]`: empty if there is none. -/
def getService (s : List (List UInt8 × List UInt8)) (type : List UInt8) : List UInt8 :=
  match s.find? (fun x => x.1 = type) with
  | some x => x.2
  | none => []

/-- utils/UpnpDiscovery.cpp:170-180: the loop over services.  Fuel: the number of elements. -/
def serviceLoop (els : List Xml.El) : Nat → Option Nat → List (List UInt8 × List UInt8) → Res (List (List UInt8 × List UInt8))
  | _, none, s => .ok s
  | 0, some _, _ => .diverge
  | n + 1, some k, s => do
    let type ← Xml.valueOf els k (ascii "serviceType")
    let url ← Xml.valueOf els k (ascii "controlURL")
    let next ← Xml.nextNode els k (ascii "service")
    serviceLoop els n next (if type ≠ [] ∧ url ≠ [] then setService s type url else s)

/-- utils/UpnpDiscovery.cpp:168-181: the services of a device. -/
def servicesOf (els : List Xml.El) (k : Nat) (s : List (List UInt8 × List UInt8)) : Res (List (List UInt8 × List UInt8)) := do
  match ← Xml.firstNode els k (ascii "serviceList") with
  | some l => do
    let f ← Xml.firstNode els l (ascii "service")
    serviceLoop els els.length f s
  | none => pure s

/-- utils/UpnpDiscovery.cpp:165-166: the name is that of the first device that has one. -/
def nameOf (els : List Xml.El) (k : Nat) (name : List UInt8) : Res (List UInt8) :=
  if name = [] then Xml.valueOf els k (ascii "friendlyName") else .ok name

/-- utils/UpnpDiscovery.cpp:183-186: the first of the devices in a device. -/
def inner (els : List Xml.El) (k : Nat) : Res (Option Nat) := do
  match ← Xml.firstNode els k (ascii "deviceList") with
  | some l => Xml.firstNode els l (ascii "device")
  | none => pure none

/-- utils/UpnpDiscovery.cpp:160-190: `parseDevicesNode` from its first device on.  Fuel: rounds and depth. -/
def deviceLoop (els : List Xml.El) : Nat → Option Nat → List UInt8 × List (List UInt8 × List UInt8) →
    Res (List UInt8 × List (List UInt8 × List UInt8))
  | _, none, r => .ok r
  | 0, some _, _ => .diverge
  | n + 1, some k, r => do
    let name ← nameOf els k r.1
    let s ← servicesOf els k r.2
    let i ← inner els k
    let r ← deviceLoop els n i (name, s)
    let next ← Xml.nextNode els k (ascii "device")
    deviceLoop els n next r

/-- utils/UpnpDiscovery.cpp:192-200 `onRootXmlReceive`: the device, if the text can be read. -/
def onRootXml (xml : List UInt8) (d : Device) : Res (Option Device) := do
  match ← Xml.parse xml with
  | none => pure none
  | some els => do
    let f ← Xml.firstNode els 0 (ascii "device")
    let r ← deviceLoop els (els.length + 1) f (d.name, d.services)
    pure (some { d with name := r.1, services := r.2 })

/-- utils/UpnpDiscovery.cpp:135-150: data from the router; the device, and how much of the data is used up.  The sum
has 32 bits.  Reading what is not in memory is undefined. -/
def onReceive (n : Nat) (data after : List UInt8) (d : Device) : Res (Option Device × Nat) := do
  let i ← Http.read n data after
  let used := (i.dataStart + i.dataSize) % 4294967296
  if i.valid = true ∧ used ≤ data.length then
    if i.dataStart + i.dataSize ≤ (data ++ after).length then do
      let r ← onRootXml (((data ++ after).drop i.dataStart).take i.dataSize) d
      pure (r, used)
    else .ub
  else pure (none, 0)

/-- utils/UpnpDiscovery.h:37-48: the queue, the connections that are open (the last one is `stream`), and whether there is someone to tell
(`onNewDevice`). -/
structure Disc where
  queue : List Location := []
  streams : List Device := []
  listener : Bool := true
deriving DecidableEq, Repr

/-- utils/UpnpDiscovery.cpp:108-158 `queryNext`: a new connection takes the place of `stream`; the one before stays open. -/
def queryNext (s : Disc) : Disc :=
  match s.queue.getLast? with
  | none => s
  | some l =>
    { s with
      queue := s.queue.dropLast
      streams := s.streams ++ [{ gateway := l.gateway, clientIp := l.clientIp, port := l.port }] }

/-- utils/UpnpDiscovery.cpp:63-82: an answer to the search. -/
def onLocations (s : Disc) (ls : List Location) : Disc := queryNext { s with queue := s.queue ++ ls }

/-- utils/UpnpDiscovery.cpp:87-101 `stop`: only `stream` is closed. -/
def stop (s : Disc) : Disc := { queue := [], streams := s.streams.dropLast, listener := false }

/-- utils/UpnpDiscovery.cpp:140-150, 192-200: data on the connection `i`.  Calling an empty function throws, which nobody catches. -/
def onData (n : Nat) (s : Disc) (i : Nat) (data after : List UInt8) : Res (Option Device) :=
  match s.streams[i]? with
  | none => .ok none
  | some d => do
    let r ← onReceive n data after d
    match r.1 with
    | none => pure none
    | some d => if s.listener then pure (some d) else .ub

/-! ### Forwarding ports -/

/-- utils/UpnpPortMapping.h:16 `PortType`. -/
inductive Proto where
  | tcp | udp
deriving DecidableEq, Repr

/-- utils/UpnpPortMapping.h:42-48 `MappedPort`. -/
structure Mapped where
  gateway : List UInt8
  gatewayPort : Nat
  port : Nat
  type : Proto
deriving DecidableEq, Repr

/-- A connection of `pendingRequests` (utils/UpnpPortMapping.cpp:97-175, 177-258): what it asks for, and whether an answer came
(only needed to speak about answers). -/
structure Req where
  gateway : List UInt8
  gatewayPort : Nat
  port : Nat
  type : Proto
  add : Bool
  data : List UInt8
  answered : Bool := false
deriving DecidableEq, Repr

/-- utils/UpnpPortMapping.h:49-63: what is wished (`mapping`), the devices, what is known to be mapped, and the requests
under way. -/
structure Sys where
  wishes : List (Nat × Proto) := []
  devices : List Device := []
  mapped : List Mapped := []
  pending : List Req := []
deriving DecidableEq, Repr

/-- utils/UpnpPortMapping.cpp:9. -/
def serviceName : List UInt8 := ascii "urn:schemas-upnp-org:service:WANIPConnection:1"

/-- utils/UpnpPortMapping.cpp:344-353 `getMappingServiceControlUrl`. -/
def controlUrl (ds : List Device) (gateway : List UInt8) : List UInt8 :=
  match ds.find? (fun d => d.gateway = gateway) with
  | some d => getService d.services serviceName
  | none => []

/-- utils/UpnpPortMapping.cpp:355-372 `createUpnpHttpHeader`. -/
def httpHeader (ds : List Device) (host : List UInt8) (port : Nat) (length : Nat) (action : List UInt8) : List UInt8 :=
  let url := controlUrl ds host
  let url := if url = [] then ascii "/ipc" else url
  ascii "POST " ++ url ++ ascii " HTTP/1.1\r\nSOAPAction: \"" ++ action ++
    ascii "\"\r\nContent-Type: text/xml; charset=\"utf-8\"\r\nUser-Agent: mtTorrent (UPnP/1.0)\r\nHost: " ++ host ++ ascii ":" ++ dec port ++
    ascii "\r\nAccept: text/html, image/gif, image/jpeg, *; q=.2, */*; q=.2\r\nConnection: keep-alive\r\nContent-Length: " ++ dec length ++
    ascii "\r\n\r\n"

/-- utils/UpnpPortMapping.cpp:102, 182. -/
def protoName : Proto → List UInt8
  | .tcp => ascii "TCP"
  | .udp => ascii "UDP"

/-- utils/UpnpPortMapping.cpp:104-118: the request for a new mapping. -/
def addBody (client : List UInt8) (port : Nat) (type : Proto) : List UInt8 :=
  ascii "<?xml version=\"1.0\" encoding=\"utf-8\"?>\n<s:Envelope xmlns:s =\"http://schemas.xmlsoap.org/soap/envelope/\" s:encodingStyle=\"http://schemas.xmlsoap.org/soap/encoding/\">\n<s:Body>\n<u:AddPortMapping xmlns:u=\"" ++
  serviceName ++ ascii "\">\n<NewRemoteHost></NewRemoteHost>\n<NewExternalPort>" ++ dec port ++ ascii "</NewExternalPort>\n<NewProtocol>" ++
  protoName type ++ ascii "</NewProtocol>\n<NewInternalPort>" ++ dec port ++ ascii "</NewInternalPort>\n<NewInternalClient>" ++ client ++
  ascii "</NewInternalClient>\n<NewEnabled>1</NewEnabled>\n<NewPortMappingDescription>mtTorrent UPnP " ++ dec port ++ ascii " " ++
  protoName type ++
  ascii "</NewPortMappingDescription>\n<NewLeaseDuration>0</NewLeaseDuration>\n</u:AddPortMapping>\n</s:Body>\n</s:Envelope>\r\n"

/-- utils/UpnpPortMapping.cpp:184-193: the request to end a mapping. -/
def deleteBody (port : Nat) (type : Proto) : List UInt8 :=
  ascii "<?xml version=\"1.0\" encoding=\"utf-8\"?>\n<s:Envelope xmlns:s=\"http://schemas.xmlsoap.org/soap/envelope/\" s:encodingStyle=\"http://schemas.xmlsoap.org/soap/encoding/\">\n<s:Body>\n<u:DeletePortMapping xmlns:u=\"" ++
  serviceName ++ ascii "\">\n<NewRemoteHost></NewRemoteHost>\n<NewProtocol>" ++ protoName type ++ ascii "</NewProtocol>\n<NewExternalPort>" ++
  dec port ++ ascii "</NewExternalPort>\n</u:DeletePortMapping>\n</s:Body>\n</s:Envelope>\r\n"

/-- utils/UpnpPortMapping.cpp:97-135, 174 `mapPort`: what is sent once connected. -/
def mapRequest (ds : List Device) (d : Device) (w : Nat × Proto) : Req :=
  let body := addBody d.clientIp w.1 w.2
  { gateway := d.gateway, gatewayPort := d.port, port := w.1, type := w.2, add := true
    data := httpHeader ds d.gateway d.port body.length (serviceName ++ ascii "#AddPortMapping") ++ body }

/-- utils/UpnpPortMapping.cpp:177-210, 257 `unmapPort`. -/
def unmapRequest (ds : List Device) (d : Device) (m : Mapped) : Req :=
  let body := deleteBody m.port m.type
  { gateway := d.gateway, gatewayPort := d.port, port := m.port, type := m.type, add := false
    data := httpHeader ds d.gateway d.port body.length (serviceName ++ ascii "#DeletePortMapping") ++ body }

/-- utils/UpnpPortMapping.cpp:308, 328: a mapping of this device is the wished one. -/
def same (d : Device) (m : Mapped) (w : Nat × Proto) : Bool := m.gateway = d.gateway ∧ m.port = w.1 ∧ m.type = w.2

/-- utils/UpnpPortMapping.cpp:303-320: the first wish that is not mapped. -/
def missing (s : Sys) (d : Device) : Option (Nat × Proto) := s.wishes.find? fun w => !s.mapped.any fun m => same d m w

/-- utils/UpnpPortMapping.cpp:323-340: the first mapping that is not wished. -/
def surplus (s : Sys) (d : Device) : Option Mapped := s.mapped.find? fun m => !s.wishes.any fun w => same d m w

/-- utils/UpnpPortMapping.cpp:294-341, the loop over devices of `refreshMapping`.  A request under way to one device ends it. -/
def refreshLoop (s : Sys) : List Device → List Req → List Req
  | [], p => p
  | d :: ds, p =>
    if p.any fun r => r.gateway = d.gateway then p
    else
      let p := match missing s d with
        | some w => p ++ [mapRequest s.devices d w]
        | none => p
      let p := match surplus s d with
        | some m => p ++ [unmapRequest s.devices d m]
        | none => p
      refreshLoop s ds p

/-- utils/UpnpPortMapping.cpp:290-342 `refreshMapping`. -/
def refresh (s : Sys) : Sys := { s with pending := refreshLoop s s.devices s.pending }

/-- utils/UpnpPortMapping.cpp:26-60 `mapActiveAdapters`, without the start of the discovery. -/
def mapPort (s : Sys) (w : Nat × Proto) : Sys := if w ∈ s.wishes then s else refresh { s with wishes := s.wishes ++ [w] }

/-- utils/UpnpPortMapping.cpp:62-77 `unmapMappedAdapters`. -/
def unmapPort (s : Sys) (w : Nat × Proto) : Sys := refresh { s with wishes := s.wishes.erase w }

/-- utils/UpnpPortMapping.cpp:79-88 `unmapAllMappedAdapters`. -/
def unmapAll (s : Sys) : Sys := refresh { s with wishes := [] }

/-- utils/UpnpPortMapping.cpp:40-56: a device is found. -/
def found (s : Sys) (d : Device) : Sys :=
  if s.devices.any fun e => e.clientIp = d.clientIp ∧ e.gateway = d.gateway ∧ e.port = d.port then s
  else refresh { s with devices := s.devices ++ [d] }

/-- utils/UpnpPortMapping.cpp:137-154, 212-237: a whole answer to the request `i`. -/
def answer (s : Sys) (i : Nat) (success : Bool) : Sys :=
  match s.pending[i]? with
  | none => s
  | some r =>
    let mapped :=
      if success = false then s.mapped
      else if r.add then s.mapped ++ [⟨r.gateway, r.gatewayPort, r.port, r.type⟩]
      else s.mapped.eraseP fun m => m.gateway = r.gateway ∧ m.port = r.port ∧ m.type = r.type
    { s with mapped, pending := s.pending.set i { r with answered := true } }

/-- utils/UpnpPortMapping.cpp:156-172, 239-255: the connection of the request `i` has ended. -/
def closed (s : Sys) (i : Nat) : Sys := refresh { s with pending := s.pending.eraseIdx i }

end Verif.Upnp
