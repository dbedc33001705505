import Verif.Model.Sync
/-
The part of Go's package net that turns addresses into text and back: `TCPAddr.String`, called in p2p/sync.go:153,
179, 195, 216, and `ResolveTCPAddr("tcp", ·)`, called in p2p/pool.go:96, 154 and p2p/peer.go:62. Strings are lists of
characters. Names and IPv6 texts are left to a parameter.
-/
namespace Gringo.Net
open Gringo.P2P

/-- What is left to the operating system: the first address of a host that is neither empty nor an IPv4 literal, the
number of a named port, and the text of an address that is not IPv4. -/
structure Resolver where
  host : List Char → Option Bytes
  port : List Char → Option Nat
  text : Bytes → List Char

/-- The digit of a number below ten. -/
def digit (d : Nat) : Char := Char.ofNat (48 + d)

/-- Go's net/parse.go `itoa` for numbers that are not negative. -/
def itoa (n : Nat) : List Char :=
  if n < 10 then [digit n] else itoa (n / 10) ++ [digit (n % 10)]
termination_by n

/-- `itoa` for all numbers. -/
def itoaInt (n : Int) : List Char := if n < 0 then '-' :: itoa n.natAbs else itoa n.natAbs

/-- net/ip.go `IP.String` for four bytes: dotted decimal. -/
def dotted : Bytes → List Char
  | [a, b, c, d] => itoa a.toNat ++ '.' :: (itoa b.toNat ++ '.' :: (itoa c.toNat ++ '.' :: itoa d.toNat))
  | _ => []

/-- net/ip.go `ipEmptyString`: IPv4 in dotted decimal, nothing for a nil address. -/
def ipText (r : Resolver) (ip : Bytes) : List Char :=
  match to4 ip with
  | some ip4 => dotted ip4
  | none => if ip = [] then [] else r.text ip

/-- net/ipsock.go `JoinHostPort` -/
def joinHostPort (host port : List Char) : List Char :=
  if ':' ∈ host then '[' :: host ++ ']' :: ':' :: port else host ++ ':' :: port

/-- net/tcpsock.go `TCPAddr.String`; there are no zones here. -/
def addrText (r : Resolver) (a : TCPAddr) : List Char := joinHostPort (ipText r a.ip) (itoaInt a.port)

/-- Cut at the last colon. -/
def lastColon : List Char → Option (List Char × List Char)
  | [] => none
  | c :: s =>
    match lastColon s with
    | some (h, p) => some (c :: h, p)
    | none => if c = ':' then some ([], s) else none

/-- net/ipsock.go `SplitHostPort` -/
def splitHostPort (s : List Char) : Option (List Char × List Char) :=
  match lastColon s with
  | none => none
  | some (h, port) =>
    match h with
    | '[' :: inner =>
      if inner.getLast? = some ']' ∧ ']' ∉ inner.dropLast ∧ '[' ∉ inner ∧ '[' ∉ port ∧ ']' ∉ port then
        some (inner.dropLast, port)
      else none
    | _ => if ':' ∈ h ∨ '[' ∈ h ∨ ']' ∈ h ∨ '[' ∈ port ∨ ']' ∈ port then none else some (h, port)

def isDigit (c : Char) : Bool := 48 ≤ c.toNat && c.toNat ≤ 57

/-- net/parse.go `dtoi`: the number at the beginning and what follows it. Numbers from 0xFFFFFF on are an error. -/
def dtoiGo (n : Nat) : List Char → Option (Nat × List Char)
  | [] => some (n, [])
  | c :: s =>
    if isDigit c then
      if n * 10 + (c.toNat - 48) ≥ 0xFFFFFF then none else dtoiGo (n * 10 + (c.toNat - 48)) s
    else some (n, c :: s)

def dtoi : List Char → Option (Nat × List Char)
  | [] => none
  | c :: s => if isDigit c then dtoiGo 0 (c :: s) else none

/-- One of the four numbers of net/ip.go `parseIPv4`. -/
def octet (s : List Char) : Option (UInt8 × List Char) :=
  match dtoi s with
  | none => none
  | some (n, s) => if n > 255 then none else some (UInt8.ofNat n, s)

/-- The dot between two numbers of net/ip.go `parseIPv4`. -/
def dot : List Char → Option (List Char)
  | '.' :: s => some s
  | _ => none

/-- net/ip.go `parseIPv4` (up to Go 1.16; later versions refuse leading zeros). -/
def parseIPv4 (s : List Char) : Option Bytes := do
  let (a, s) ← octet s
  let s ← dot s
  let (b, s) ← octet s
  let s ← dot s
  let (c, s) ← octet s
  let s ← dot s
  let (d, s) ← octet s
  if s = [] then some [0, 0, 0, 0, 0, 0, 0, 0, 0, 0, 255, 255, a, b, c, d] else none

/-- The value of a text of digits. -/
def decimal (n : Nat) : List Char → Option Nat
  | [] => some n
  | c :: s => if isDigit c then decimal (n * 10 + (c.toNat - 48)) s else none

/-- net/port.go `parsePort`, `none` for a name. Go stops counting at 2^30, far above the limit of 65535 that is checked
in the end; a negative number is out of range too and is given as 65536 here. -/
def parsePort : List Char → Option Nat
  | '+' :: t => decimal 0 t
  | '-' :: t => (decimal 0 t).map fun n => if n = 0 then 0 else 65536
  | t => decimal 0 t

/-- net/lookup.go `LookupPort` -/
def lookupPort (r : Resolver) (s : List Char) : Option Nat :=
  match parsePort s with
  | some n => if n ≤ 65535 then some n else none
  | none => r.port s

/-- net/tcpsock.go `ResolveTCPAddr("tcp", s)` -/
def resolve (r : Resolver) (s : List Char) : Option TCPAddr :=
  if s = [] then some { ip := [], port := 0 }
  else do
    let (host, port) ← splitHostPort s
    let p ← lookupPort r port
    if host = [] then some { ip := [], port := p }
    else
      match parseIPv4 host with
      | some ip => some { ip, port := p }
      | none => (r.host host).map fun ip => { ip, port := p }

/-- A world with this package net. -/
def world (r : Resolver) (order : Table → Table) (closing : Nat → Bool) : World where
  resolve s := resolve r s.toList
  addrString a := String.ofList (addrText r a)
  order
  closing

/-- The address a socket is connected to after a dial: connecting to the unspecified address means the local host. -/
def peerName (a : TCPAddr) : TCPAddr :=
  if a.ip = [] ∨ to4 a.ip = some [0, 0, 0, 0] then { a with ip := [127, 0, 0, 1] }
  else if a.ip = List.replicate 16 0 then { a with ip := List.replicate 15 0 ++ [1] }
  else a

/-- A connection that was dialled by p2p/peer.go:62-68: `Peer.Addr` is the table key it was dialled by, and
`conn.RemoteAddr().String()` is the text of the address the socket is connected to. -/
def Dialled (r : Resolver) (f : Sender) : Prop :=
  ∃ a, resolve r f.addr.toList = some a ∧ f.remote = String.ofList (addrText r (peerName a))

end Gringo.Net
