import Verif.Model.Env
/-
Model of secp256k1zkp/schnorr.go, pedersen.go and the constants they use.
-/
namespace Gringo.Secp

/-- secp256k1zkp/constants.go:39 -/
def PedersenCommitmentSize : Nat := 33
/-- secp256k1zkp/constants.go:42 -/
def MaxProofSize : Nat := 5134
/-- secp256k1zkp/constants.go:17 -/
def SecretKeySize : Nat := 32

/-- `btcec.S256().N`, the group order; equal to `CurveOrders` in secp256k1zkp/constants.go:51-56. -/
def N : Nat := 0xfffffffffffffffffffffffffffffffebaaedce6af48a03bbfd25e8cd0364141

/-- secp256k1zkp/constants.go:59-78 -/
def G : Point :=
  { X := 0x79be667ef9dcbbac55a06295ce870b07029bfcdb2dce28d959f2815b16f81798,
    Y := 0x483ada7726a3c4655da4fbfc0e1108a8fd17b448a68554199c47d08ffb10d4b8 }

/-- secp256k1zkp/constants.go:81-98 -/
def H : Point :=
  { X := 0x50929b74c1a04954b78b4b6035e97a5e078a5a0f28ec96d547bfee9ace803ac0,
    Y := 0x31d3c6863973926e049e637cb1b5f40a36dac28af1766968c30c2313f3a38904 }

/-- secp256k1zkp/schnorr.go:34-46 `RandomInt` on the successive results of `RandomBytes`, secp256k1zkp/schnorr.go:23-31
(that the random source fails, which panics, is not modelled). `none` means that the draws supplied did not suffice. -/
def randomInt : List Bytes → Option Nat
  | [] => none
  | buf :: rest => if ofBE buf > N then randomInt rest else some (ofBE buf)

/-- secp256k1zkp/schnorr.go:50-53 `type Signature` -/
structure Signature where
  S : Nat
  R : Point
deriving Repr, DecidableEq

/-- secp256k1zkp/schnorr.go:56-63 `Signature.Bytes` (`GetB32` returns a `[32]byte`). -/
def Signature.bytes (E : Env) (s : Signature) : Bytes := E.getB32 s.R.X ++ E.getB32 s.S

/-- secp256k1zkp/schnorr.go:125-135 `CompressPubkey` -/
def compressPubkey (E : Env) (p : Point) : Bytes :=
  (if p.Y % 2 = 1 then (0x03 : UInt8) else 0x02) :: E.getB32 p.X

/-- secp256k1zkp/schnorr.go:83-88,99-106: the bytes hashed for the challenge. -/
def challengeInput (E : Env) (R publicKey : Point) (message : Bytes) : Bytes :=
  E.getB32 R.X ++ compressPubkey E publicKey ++ message

/-- secp256k1zkp/schnorr.go:85-89,103-107,168-178: the challenge as a number. -/
def challenge (E : Env) (R publicKey : Point) (message : Bytes) : Nat :=
  ofBE (E.sha256 (challengeInput E R publicKey message))

/-- secp256k1zkp/schnorr.go:75-94 `SignMessage`, with the random nonce `k` as an argument. -/
def signMessage (E : Env) (publicKey : Point) (privateKey : Nat) (message : Bytes) (k : Nat) :
    Signature :=
  let R := E.smul G k
  let e := challenge E R publicKey message
  { S := E.ssum k (E.smulS e privateKey), R := R }

/-- secp256k1zkp/schnorr.go:98-114 `VerifySignature`: only the X coordinates are compared. -/
def verifySignature (E : Env) (publicKey : Point) (message : Bytes) (sig : Signature) : Bool :=
  let e := challenge E sig.R publicKey message
  let lhs := E.smul G sig.S
  let rhs := E.padd sig.R (E.smul publicKey e)
  lhs.X == rhs.X

/-- secp256k1zkp/schnorr.go:118-122 `CommitValue` -/
def commitValue (E : Env) (blind v : Nat) : Point := E.padd (E.smul G blind) (E.smul H v)

/-- secp256k1zkp/schnorr.go:138-151 `decompressPoint`; the curve's B is 7. -/
def decompressPoint (E : Env) (xBytes : Bytes) : Nat :=
  let x := ofBE xBytes
  E.modSqrt (x * x * x + 7)

/-- secp256k1zkp/schnorr.go:154-165 `DecodeSignature` -/
def decodeSignature (E : Env) (sig : Bytes) : Signature :=
  { S := ofBE (sig.drop 32),
    R := { X := ofBE (sig.take 32), Y := decompressPoint E (sig.take 32) } }

/-- secp256k1zkp/schnorr.go:181-186 `ComputeMessage` -/
def computeMessage (fee lockHeight : UInt64) : Bytes :=
  List.replicate 16 0 ++ be64 fee ++ be64 lockHeight

end Gringo.Secp
