import Verif.Model.Validate
/-
Model of consensus/difficulty.go.
-/
namespace Gringo

/-- consensus/difficulty.go:14,17. A `Difficulty` is its number, so `FromNum` and `IntoNum`, consensus/difficulty.go:23-25,
38-40, are the identity. -/
def ZeroDifficulty : UInt64 := 0
@[inherit_doc ZeroDifficulty] def MinimumDifficulty : UInt64 := 1
/-- consensus/consensus.go:97 -/
def MedianTimeWindow : Nat := 11
/-- consensus/consensus.go:103 -/
def DifficultyAdjustWindow : Nat := 60
/-- consensus/consensus.go:106: a `time.Duration`, so 3600 means 3600 ns. -/
def BlockTimeWindow : Int := DifficultyAdjustWindow * BlockTimeSec
/-- consensus/consensus.go:109 -/
def UpperTimeBound : Int := BlockTimeWindow * 2
/-- consensus/consensus.go:112 -/
def LowerTimeBound : Int := BlockTimeWindow * 2
/-- consensus/consensus.go:12 `MAXTarget` as a big endian number -/
def maxTarget : UInt64 := 0x0fffffffffffffff

/-- consensus/difficulty.go:29-36 `FromHash` -/
def difficultyFromHash (hash : Bytes) : Out UInt64 :=
  if hash.length < 8 then .panic "slice bounds out of range"
  else
    let num := UInt64.ofNat (ofBE (hash.take 8))
    if num = 0 then .panic "integer divide by zero"
    else .ok (maxTarget / num)

/-- consensus/proof.go:45-53 `(*Proof).ToDifficulty`, `(*Proof).Hash`: of edge bits and nonces. -/
def Proof.toDifficulty (E : Env) (p : Proof) : Out UInt64 := do
  let b ← p.bytes
  difficultyFromHash (E.blake2b b)

/-- The variables the loop of `NextDifficulty` updates. -/
structure DiffScan where
  sumDiff : UInt64 := 0
  windowBegin : List Time := []
  windowEnd : List Time := []

/-- consensus/difficulty.go:68-82: the loop, `n` is `i + 1`. The block list is represented by its headers,
the only part used. -/
def diffScan (bl : List BlockHeader) : Nat → DiffScan → DiffScan
  | 0, st => st
  | i + 1, st =>
    match bl[i]? with
    | none => st
    | some h =>
      if i < DifficultyAdjustWindow then
        diffScan bl i
          { st with
            sumDiff := st.sumDiff + h.difficulty
            windowBegin := if i < MedianTimeWindow then st.windowBegin ++ [h.timestamp] else st.windowBegin }
      else if i < DifficultyAdjustWindow + MedianTimeWindow then
        diffScan bl i { st with windowEnd := st.windowEnd ++ [h.timestamp] }
      else st

/-- `sort.SliceStable` of times by `Before` -/
def sortTimes (l : List Time) : List Time := l.mergeSort (fun a b => ! b.before a)

/-- consensus/difficulty.go:54-120 `NextDifficulty` -/
def nextDifficulty (bl : List BlockHeader) : Out UInt64 :=
  if bl.length = 0 then .ok ZeroDifficulty
  else
    let st := diffScan bl bl.length {}
    if st.windowEnd.length < MedianTimeWindow then .ok MinimumDifficulty
    else
      let wb := sortTimes st.windowBegin
      let we := sortTimes st.windowEnd
      match wb[wb.length / 2]?, we[we.length / 2]? with
      | some beginTime, some endTime =>
        let diffAvg := st.sumDiff / UInt64.ofNat DifficultyAdjustWindow
        let ts := (wrapI64 (3 * BlockTimeWindow + beginTime.sub endTime)).tdiv 4
        let ts := if ts < LowerTimeBound then LowerTimeBound else ts
        let ts := if ts > UpperTimeBound then UpperTimeBound else ts
        let d := UInt64.ofInt ts
        if d = 0 then .panic "integer divide by zero"
        else
          let diff := diffAvg * UInt64.ofInt BlockTimeWindow / d
          .ok (if diff > MinimumDifficulty then diff else MinimumDifficulty)
      | _, _ => .panic "index out of range"

end Gringo
