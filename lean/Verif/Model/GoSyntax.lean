import Verif.Model.Messages
import Verif.Model.Print
/-
Model of the `String` methods of messages, `fmt.Sprintf("%#v", p)`: p2p/messages.go. The verb is that of Go's package fmt
(print.go, format.go): a struct is its type and its fields in braces, an unsigned number is hexadecimal after `0x`, a slice is
its type and its elements in braces, or `(nil)`, a pointer inside a struct is its type and the address in memory. None of the
types has a method `GoString`.

Not modelled: the `String` methods of types with a time or a text in them (consensus/block.go:195, 456, 618, 754, 1046,
consensus/transaction.go:156, p2p/messages.go:220, 348, 407).
-/
namespace Gringo.Print
open Gringo.P2P

/-- The characters of a text. -/
@[irreducible] def chars (s : String) : List Char := s.toList

/-- A number in hexadecimal, as short as possible. -/
def hexNum (n : Nat) : List Char :=
  if n < 16 then [hexDigits.getD n ' '] else hexNum (n / 16) ++ [hexDigits.getD (n % 16) ' ']

/-- `%#v` of an unsigned number: fmt/format.go `fmt0x64`. -/
def sharpNum (n : Nat) : List Char := chars "0x" ++ hexNum n

/-- Elements with a comma and a space between them. -/
def items {α : Type} (f : α → List Char) : List α → List Char
  | [] => []
  | [a] => f a
  | a :: b :: l => f a ++ chars ", " ++ items f (b :: l)

/-- `%#v` of a slice: fmt/print.go `printValue`. `none` is the slice `nil`. -/
def sharpSlice {α : Type} (type : String) (f : α → List Char) : Option (List α) → List Char
  | none => chars type ++ chars "(nil)"
  | some l => chars type ++ '{' :: items f l ++ ['}']

/-- `%#v` of a hash, consensus/id.go:21: a slice of bytes. -/
def sharpHash (h : Option Bytes) : List Char := sharpSlice "consensus.Hash" (fun b : UInt8 => sharpNum b.toNat) h

/-- p2p/messages.go:122-124 `Ping.String`. -/
def pingString (p : Ping) : List Char :=
  chars "p2p.Ping{TotalDifficulty:" ++ sharpNum p.totalDifficulty.toNat ++ chars ", Height:" ++ sharpNum p.height.toNat ++
    ['}']

/-- p2p/messages.go:127-129: `Pong` has a `Ping` embedded, and with it this method. -/
def pongString (p : Ping) : List Char := pingString p

/-- p2p/messages.go:165-167 `GetPeerAddrs.String`. -/
def getPeerAddrsString (p : GetPeerAddrs) : List Char :=
  chars "p2p.GetPeerAddrs{Capabilities:" ++ sharpNum p.capabilities.toNat ++ ['}']

/-- p2p/messages.go:313-315 `GetBlock.String`. -/
def getBlockString (hash : Option Bytes) : List Char := chars "p2p.GetBlock{Hash:" ++ sharpHash hash ++ ['}']

/-- p2p/messages.go:432-434 `GetBlockHeaders.String`; consensus/locator.go:15-17. -/
def getBlockHeadersString (hashes : Option (List (Option Bytes))) : List Char :=
  chars "p2p.GetBlockHeaders{Locator:consensus.Locator{Hashes:" ++ sharpSlice "[]consensus.Hash" sharpHash hashes ++
    chars "}}"

/-- `%#v` of a pointer inside a struct: fmt/print.go `fmtPointer`. -/
def sharpPointer (type : String) (address : Nat) : List Char :=
  if address = 0 then chars "(" ++ chars type ++ chars ")(nil)"
  else chars "(" ++ chars type ++ chars ")(" ++ sharpNum address ++ chars ")"

/-- p2p/messages.go:279-281 `PeerAddrs.String`, of pointers and what they point to. -/
def peerAddrsString {α : Type} (peers : Option (List (Nat × α))) : List Char :=
  chars "p2p.PeerAddrs{peers:" ++ sharpSlice "[]*net.TCPAddr" (fun p => sharpPointer "*net.TCPAddr" p.1) peers ++ ['}']

end Gringo.Print
