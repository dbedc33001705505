import Verif.Model.Block

/-
Model of secp256k1zkp/pedersen.go and of the `String` methods that turn bytes and flags into text: consensus/id.go,
consensus/block.go and secp256k1zkp/pedersen.go. The `String` methods of messages are in Model/GoSyntax.lean; those of
whole blocks and transactions (`fmt.Sprintf("%#v", p)`) are not modelled.
-/

namespace Gringo.Print

/-- The table `0123456789abcdef` of Go's package encoding/hex and of `%x` in Go's package fmt. -/
def hexDigits : List Char :=
  ['0', '1', '2', '3', '4', '5', '6', '7', '8', '9', 'a', 'b', 'c', 'd', 'e', 'f']

/-- The two characters of one byte, high half first. -/
def hexByte (b : UInt8) : List Char :=
  [hexDigits.getD (b.toNat / 16) ' ', hexDigits.getD (b.toNat % 16) ' ']

/-- `hex.EncodeToString` of Go's package encoding/hex; the same as `%x` of a byte slice. -/
def hexEncode (b : Bytes) : List Char := b.flatMap hexByte

/-- `%032x` of a byte slice in Go's package fmt: zeros on the left up to a width of 32. -/
def hexPad32 (b : Bytes) : List Char :=
  List.replicate (32 - (hexEncode b).length) '0' ++ hexEncode b

/-- consensus/id.go:24-26 `Hash.String` -/
def hashString (h : Bytes) : List Char := hexPad32 h

/-- consensus/id.go:45-47 `ShortID.String` -/
def shortIDString (id : Bytes) : List Char := hexEncode id

/-- secp256k1zkp/pedersen.go:15-17 `Commitment.Bytes`: a `Commitment` is a byte slice. -/
def commitmentBytes (c : Bytes) : Bytes := c

/-- secp256k1zkp/pedersen.go:20-24 `Commitment.Read`: fills the slice the receiver already is. Nothing in the repository
calls it: `Input.Read` allocates the slice itself. -/
def commitmentRead (receiver : Bytes) : Rd Bytes := Rd.readFull receiver.length

/-- secp256k1zkp/pedersen.go:27-29 `Commitment.String` -/
def commitmentString (c : Bytes) : List Char := hexEncode (commitmentBytes c)

/-- consensus/block.go:34-42 `OutputFeatures.String` -/
def outputFeaturesString (f : UInt8) : String :=
  if f = 0 then "" else if f = 1 then "Coinbase" else ""

/-- consensus/block.go:54-62 `KernelFeatures.String` -/
def kernelFeaturesString (f : UInt8) : String :=
  if f = 0 then "" else if f = 1 then "Coinbase" else ""

end Gringo.Print
