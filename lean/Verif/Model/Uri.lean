import Verif.Common
/-! Taking addresses apart, utils/Uri.cpp. A string is the list of its bytes. -/

namespace Verif
open Verif

/-- utils/Uri.h:5-13. -/
structure Uri where
  protocol : List UInt8 := []
  host : List UInt8 := []
  port : List UInt8 := []
  path : List UInt8 := []
deriving DecidableEq, Repr

/-- utils/Uri.cpp:16-31: the protocol and what follows it. `prot` is a C string, so it ends at a zero byte. -/
def Uri.splitProtocol (s : List UInt8) : List UInt8 × List UInt8 :=
  let protocol := s.takeWhile (· != chr ':')
  let rest := s.drop protocol.length
  let prot := rest.takeWhile (· != 0)
  if 3 < prot.length ∧ prot.take 3 = ascii "://" then (protocol, rest.drop 3) else ([], s)

/-- utils/Uri.cpp:4-51 `Parse`. Where the address is empty everything is. -/
def Uri.parse (s : List UInt8) : Uri :=
  let (protocol, rest) := Uri.splitProtocol s
  let authority := rest.takeWhile (· != chr '/')
  let host := authority.takeWhile (· != chr ':')
  { protocol := protocol
    host := host
    port := (authority.drop host.length).drop 1
    path := rest.drop authority.length }

end Verif
