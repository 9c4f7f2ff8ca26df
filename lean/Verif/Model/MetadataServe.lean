import Verif.Model.Metadata
/-! Core/FileTransfer.cpp:122-141: metadata given to peers that ask for it. -/

namespace Verif.Metadata
open Verif Layout Bencode

/-- Core/MetadataExtension.cpp:58-75 `sendPieceRequest`: the message without the six header bytes. -/
def pieceRequest (index : Nat) : List UInt8 :=
  endMap (addRawItemNumber (addRawItemNumber (startMap []) (ascii "8:msg_type") 0) (ascii "5:piece") index)

/-- Core/FileTransfer.cpp:124-140: the answer to a message that was loaded.  `info` is `infoFile.info.data`; the product is one of 32 bits.
Bytes from behind `info` would be undefined behaviour, as is the use of a member not set. -/
def serve (info : List UInt8) (ok : Bool) (msg : Msg) : Res (Option (List UInt8)) :=
  if !ok then .ok none
  else match msg.type with
    | none => .ub
    | some 0 =>
      match msg.piece with
      | none => .ub
      | some piece =>
        let offset := u32 (piece * PieceSize)
        if offset < info.length then
          let size := min PieceSize (info.length - offset)
          if offset + size ≤ info.length then .ok (some (pieceResponse piece ((info.drop offset).take size) info.length))
          else .ub
        else .ok none
    | some _ => .ok none

/-- Core/FileTransfer.cpp:120-141: the answer to a message, loaded from its bytes. -/
def serveBytes (fuel : Nat) (info data after : List UInt8) : Res (Option (List UInt8)) := do
  let l ← load fuel data after
  serve info l.1 l.2

/-- A peer asks for the pieces `ks`, one after the other, and takes in what it gets: bytes both ways.  `after` is the memory behind a
message. -/
def exchange (fuel : Nat) (info after : List UInt8) : List Nat → Dl → Res Dl
  | [], d => .ok d
  | k :: ks, d => do
    match ← serveBytes fuel info (pieceRequest k) after with
    | none => exchange fuel info after ks d
    | some r => do
      let d' ← receiveBytes fuel d [(r, after)]
      exchange fuel info after ks d'

end Verif.Metadata
