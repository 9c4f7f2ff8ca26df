import Verif.Model.Sha1
import Verif.Model.RC4
import Verif.Model.DiffieHellman
/-! The encrypted handshake, Core/ProtocolEncryption.cpp. A pointer to the info hash of a torrent is its address together with the 20
bytes found there: the torrents of the program keep their hash as long as they live, and a torrent taken away during a handshake is
not modelled. The numbers and bytes delivered by `Random` are arguments. -/

namespace Verif.Pe
open Verif Sha1 BigNum

/-- A pointer to an info hash. -/
structure Torrent where
  addr : Nat
  hash : List UInt8
deriving DecidableEq

/-- Core/ProtocolEncryption.h:34-41: the map, in the order of its keys. -/
abbrev Listener := List (Torrent × List UInt8)

/-- `torrents[torrent]` followed by the assignment of the hash (Core/ProtocolEncryption.cpp:27-28). -/
def insert (t : Torrent) (req2 : List UInt8) : Listener → Listener
  | [] => [(t, req2)]
  | e :: l => if e.1.addr = t.addr then (t, req2) :: l else if t.addr < e.1.addr then (t, req2) :: e :: l else e :: insert t req2 l

/-- Core/ProtocolEncryption.cpp:20-29. -/
def addTorrent (l : Listener) (t : Torrent) : Res Listener := (sha1 (ascii "req2" ++ t.hash)).map' fun h => insert t h l

/-- Core/ProtocolEncryption.cpp:31-40. -/
def removeTorrent (l : Listener) (t : Torrent) : Listener := l.filter fun e => e.1.addr ≠ t.addr

/-- Core/ProtocolEncryption.cpp:48-52; the three buffers hold at least 20 bytes (the callers see to it). -/
def matches' (data req2 key : List UInt8) : Bool :=
  (List.range 20).all fun i => data.getD i 0 != (req2.getD i 0 ^^^ key.getD i 0)

/-- Core/ProtocolEncryption.cpp:42-59. -/
def findByPe3Hash (l : Listener) (data key : List UInt8) : Option Torrent :=
  (l.find? fun e => matches' data e.2 key).map (·.1)

/-- Core/ProtocolEncryption.h:74. -/
inductive Step where | pe1 | pe2 | pe3 | pe4 | established | error
deriving DecidableEq

/-- Core/ProtocolEncryption.h:65. -/
inductive Kind where | plainText | rc4
deriving DecidableEq

/-- Core/ProtocolEncryption.h:12-23. -/
structure Cipher where
  rcIn : RC4.State
  rcOut : RC4.State

/-- Core/ProtocolEncryption.h:44-93. -/
structure Handshake where
  step : Step
  message : List UInt8
  infoHash : Option Torrent
  shared : List Nat
  kind : Kind
  pe : Option Cipher
  dh : DH.Exchange

/-- A fresh object, `rnd` being the bytes of the private key. -/
def Handshake.new (rnd : List UInt8) : Handshake := ⟨.pe1, [], none, [], .rc4, none, DH.Exchange.create rnd⟩

/-- `sharedSecret.Export(.., 96)` into a buffer of zeros (Core/ProtocolEncryption.cpp:168-169, 219-220, 386-388). -/
def secretBytes (shared : List Nat) : List UInt8 :=
  exportBytes shared 96 ++ List.replicate (96 - (exportBytes shared 96).length) 0

/-- Core/ProtocolEncryption.cpp:382-404. -/
def prepareEncryption (invoker : Bool) (s : List UInt8) (t : Torrent) : Res Cipher :=
  (sha1 (ascii "key" ++ [if invoker then chr 'A' else chr 'B'] ++ s ++ t.hash)).bind fun keyOut =>
  (RC4.init keyOut).bind fun rcOut =>
  (sha1 (ascii "key" ++ [if invoker then chr 'B' else chr 'A'] ++ s ++ t.hash)).bind fun keyIn =>
  (RC4.init keyIn).bind fun rcIn =>
  .ok ⟨RC4.skip rcIn 1024, RC4.skip rcOut 1024⟩

/-- Core/ProtocolEncryption.cpp:157. -/
def pe3Size : Nat := 2 * 20 + 8 + 4 + 2

/-- Core/ProtocolEncryption.cpp:189-207: what is sent encrypted. -/
def pe3Plain (pad message : List UInt8) : List UInt8 :=
  List.replicate 8 0 ++ be32 3 ++ be16 pad.length ++ pad ++ be16 message.length ++ message

/-- Core/ProtocolEncryption.cpp:159-210: the message and the ciphers afterwards. -/
def createPe3 (s : List UInt8) (t : Torrent) (message pad : List UInt8) : Res (List UInt8 × Cipher) :=
  (sha1 (ascii "req1" ++ s)).bind fun req1 =>
  (sha1 (ascii "req3" ++ s)).bind fun req3 =>
  (sha1 (ascii "req2" ++ t.hash)).bind fun req2 =>
  (prepareEncryption true s t).bind fun c =>
  let e := RC4.encode c.rcOut (pe3Plain pad message)
  .ok (req1 ++ List.zipWith (· ^^^ ·) req3 req2 ++ e.2, { c with rcOut := e.1 })

/-- Core/ProtocolEncryption.cpp:224-232, 339-347: the first place at which `pat` is found, from `pos` to `max`. -/
def search (data pat : List UInt8) : Nat → Nat → Option Nat
  | 0, _ => none
  | n + 1, pos => if (data.drop pos).take pat.length = pat then some pos else search data pat n (pos + 1)

/-- `options & 2`, `options & 1` (Core/ProtocolEncryption.cpp:269-277, 359-367). -/
def kindOf (options : Nat) : Option Kind :=
  if options / 2 % 2 = 1 then some .rc4 else if options % 2 = 1 then some .plainText else none

/-- Core/ProtocolEncryption.cpp:289-302, with the decrypted rest in `buffer`. -/
def readPe3Message (h : Handshake) (size minimum : Nat) (buffer : List UInt8) : Nat × Handshake :=
  let iaSize := beVal (buffer.take 2)
  if (buffer.drop 2).length < iaSize then (minimum, h)
  else
    (size, { h with message := (buffer.drop 2).take iaSize, step := if (buffer.drop 2).length - iaSize = 0 then .established else .error })

/-- Core/ProtocolEncryption.cpp:255-302, `pos` being the start of the encrypted part. -/
def readPe3Encrypted (h : Handshake) (c : Cipher) (data : List UInt8) (minimum pos : Nat) : Nat × Handshake :=
  let d := RC4.decode c.rcIn ((data.drop pos).take 14)
  let h := { h with pe := some { c with rcIn := d.1 } }
  if beVal (d.2.take 8) ≠ 0 then (data.length, { h with step := .error })
  else match kindOf (beVal ((d.2.drop 8).take 4)) with
    | none => (data.length, { h with step := .error })
    | some k =>
      let h := { h with kind := k }
      let pad := beVal ((d.2.drop 12).take 2)
      if pos + 14 + pad + 2 > data.length then (minimum, h)
      else
        let d := RC4.decode (RC4.skip d.1 pad) (data.drop (pos + 14 + pad))
        readPe3Message { h with pe := some { c with rcIn := d.1 } } data.length minimum d.2

/-- Core/ProtocolEncryption.cpp:234-302, the hash of the secret found at `pos`. The second argument of `findByPe3Hash` is the text
that was hashed, not the hash. -/
def readPe3At (h : Handshake) (l : Listener) (s data : List UInt8) (pos : Nat) : Res (Nat × Handshake) :=
  (sha1 (ascii "req3" ++ s)).bind fun _ =>
  match findByPe3Hash l (data.drop (pos + 20)) (ascii "req3" ++ s) with
  | none => .ok (data.length, { h with infoHash := none, step := .error })
  | some t => (prepareEncryption false s t).bind fun c => .ok (readPe3Encrypted { h with infoHash := some t } c data pos (pos + 40))

/-- Core/ProtocolEncryption.cpp:212-303: the number returned and the object afterwards. -/
def readPe3 (h : Handshake) (l : Listener) (data : List UInt8) : Res (Nat × Handshake) :=
  if data.length < pe3Size + 2 then .ok (0, h)
  else
    (sha1 (ascii "req1" ++ secretBytes h.shared)).bind fun req1 =>
    match search data req1 (data.length - pe3Size - 2 + 1) 0 with
    | none => .ok (0, h)
    | some pos => readPe3At h l (secretBytes h.shared) data pos

/-- Core/ProtocolEncryption.cpp:305-326: the message and the ciphers afterwards. -/
def createPe4 (kind : Kind) (c : Cipher) (pad : List UInt8) : List UInt8 × Cipher :=
  let e := RC4.encode c.rcOut (List.replicate 8 0 ++ be32 (if kind = .rc4 then 2 else 1) ++ be16 pad.length ++ pad)
  (e.2, { c with rcOut := e.1 })

/-- Core/ProtocolEncryption.cpp:351-379, the encrypted zeros found at `pos`. -/
def readPe4At (h : Handshake) (c : Cipher) (data : List UInt8) (pos : Nat) : Nat × Handshake :=
  let d := RC4.decode c.rcIn ((data.drop (pos + 8)).take 6)
  let h := { h with pe := some { c with rcIn := d.1 } }
  match kindOf (beVal (d.2.take 4)) with
  | none => (data.length, { h with step := .error })
  | some k =>
    let h := { h with kind := k }
    let pad := beVal ((d.2.drop 4).take 2)
    if pos + 14 + pad > data.length then (pos, h)
    else (pos + 14 + pad, { h with pe := some { c with rcIn := RC4.skip d.1 pad }, step := .established })

/-- Core/ProtocolEncryption.cpp:329-380. `pe` is set since the message before it was created. -/
def readPe4 (h : Handshake) (data : List UInt8) : Res (Nat × Handshake) :=
  if data.length < 14 then .ok (0, h)
  else match h.pe with
    | none => .ub
    | some c =>
      let vc := RC4.decode c.rcIn (List.replicate 8 0)
      let c := { c with rcIn := vc.1 }
      match search data vc.2 (data.length - 14 + 1) 0 with
      | none => .ok (0, { h with pe := some c })
      | some pos => .ok (readPe4At { h with pe := some c } c data pos)

/-- Core/ProtocolEncryption.cpp:61-71; `pad` is the random data behind the key. -/
def initiate (h : Handshake) (t : Torrent) (message pad : List UInt8) : Res (List UInt8 × Handshake) :=
  (h.dh.peMessage pad).bind fun m => .ok (m, { h with infoHash := some t, message := message, step := .pe2 })

/-- Core/ProtocolEncryption.cpp:81-101: the number returned, the response, the object afterwards. The info hash is the one given to
`initiate`. -/
def readAsInitiator (h : Handshake) (data pad : List UInt8) : Res (Nat × List UInt8 × Handshake) :=
  match h.step with
  | .pe2 =>
    if data.length < DH.keySize then .ok (0, [], h)
    else
      (h.dh.peSecret h.shared data).bind fun x =>
      match h.infoHash with
      | none => .ub
      | some t =>
        (createPe3 (secretBytes x.2) t h.message pad).bind fun r =>
        .ok (data.length, r.1, { h with dh := x.1, shared := x.2, pe := some r.2, step := .pe4 })
  | .pe4 => (readPe4 h data).bind fun r => .ok (r.1, [], r.2)
  | _ => .ok (0, [], h)

/-- Core/ProtocolEncryption.cpp:103-130. -/
def readAsListener (h : Handshake) (l : Listener) (data pad : List UInt8) : Res (Nat × List UInt8 × Handshake) :=
  match h.step with
  | .pe1 =>
    if data.length < DH.keySize then .ok (0, [], h)
    else
      (h.dh.peMessage pad).bind fun m =>
      (h.dh.peSecret h.shared data).bind fun x =>
      .ok (data.length, m, { h with dh := x.1, shared := x.2, step := .pe3 })
  | .pe3 =>
    (readPe3 h l data).bind fun r =>
    if r.2.step ≠ .established then .ok (r.1, [], r.2)
    else match r.2.pe with
      | none => .ub
      | some c =>
        let p := createPe4 r.2.kind c pad
        .ok (r.1, p.1, { r.2 with pe := some p.2 })
  | _ => .ok (0, [], h)

/-- A connection that was accepted, as long as it is shaking hands: the object and the bytes received and not consumed yet. -/
structure Incoming where
  h : Handshake
  buffer : List UInt8

/-- Bytes arrive: they are appended to those left over and all are offered (utils/TcpAsyncStream.cpp:394-405, 522-533;
Core/IncomingPeersListener.cpp:175-220). The branch for connections that start with a plain handshake is left out. The response is
what is written back. -/
def receive (l : Listener) (pad : List UInt8) (s : Incoming) (chunk : List UInt8) : Res (Incoming × List UInt8) :=
  let data := s.buffer ++ chunk
  if data.length < 20 then .ok (⟨s.h, data⟩, [])
  else (readAsListener s.h l data pad).bind fun r => .ok (⟨r.2.2, data.drop r.1⟩, r.2.1)

/-- Bytes arrive in pieces; everything written back, in order. -/
def receiveAll (l : Listener) (pad : List UInt8) (s : Incoming) : List (List UInt8) → Res (Incoming × List UInt8)
  | [] => .ok (s, [])
  | c :: cs => (receive l pad s c).bind fun r => (receiveAll l pad r.1 cs).bind fun q => .ok (q.1, r.2 ++ q.2)

/-- All torrents the program serves, added in some order. -/
def addAll (l : Listener) : List Torrent → Res Listener
  | [] => .ok l
  | t :: ts => (addTorrent l t).bind fun l => addAll l ts

/-- Bytes arrive on a connection we opened: they are appended to those left over and all are offered (utils/TcpAsyncStream.cpp:394-405,
522-533; Core/PeerStream.cpp:335-363). What is left over when the handshake is finished is handed on and is not consumed here. -/
def receiveInitiator (pad : List UInt8) (s : Incoming) (chunk : List UInt8) : Res (Incoming × List UInt8) :=
  let data := s.buffer ++ chunk
  (readAsInitiator s.h data pad).bind fun r => .ok (⟨r.2.2, data.drop r.1⟩, r.2.1)

/-- The ciphers of a connection we opened, once the handshake is over (Core/PeerStream.cpp:352-355). -/
def initiatorCipher (h : Handshake) : Option Cipher := if h.kind ≠ .plainText then h.pe else none

/-- The ciphers of a connection we accepted, once the handshake is over (Core/IncomingPeersListener.cpp:246-247,
Core/PeerStream.cpp:34-39). -/
def listenerCipher (h : Handshake) : Option Cipher := h.pe

/-- Core/PeerStream.cpp:80-83, Core/ProtocolEncryption.cpp:4-7: what is sent for data that is written. -/
def write (c : Option Cipher) (data : List UInt8) : Option Cipher × List UInt8 :=
  match c with
  | none => (none, data)
  | some c => let e := RC4.encode c.rcOut data; (some { c with rcOut := e.1 }, e.2)

/-- Core/PeerStream.cpp:321-325, Core/ProtocolEncryption.cpp:15-18: what is offered to the layer above of data that arrives. -/
def read (c : Option Cipher) (data : List UInt8) : Option Cipher × List UInt8 :=
  match c with
  | none => (none, data)
  | some c => let e := RC4.decode c.rcIn data; (some { c with rcIn := e.1 }, e.2)

/-- Several pieces of data are written, one after the other. -/
def writeAll (c : Option Cipher) : List (List UInt8) → List UInt8
  | [] => []
  | d :: ds => (write c d).2 ++ writeAll (write c d).1 ds

/-- Several pieces of data arrive, one after the other. -/
def readAll (c : Option Cipher) : List (List UInt8) → List UInt8
  | [] => []
  | d :: ds => (read c d).2 ++ readAll (read c d).1 ds

end Verif.Pe
