import Verif.Model.Packet
/-!
# The FLV file format, independent of the muxer

Adobe FLV specification 10.1, annex E: file header, tags and PreviousTagSize fields, as a writer and as
a reader.
-/
namespace Verif.Spec.Flv

/-- A tag: its type, its timestamp in milliseconds and its data. -/
structure TagRec where
  type : Nat
  time : Nat
  payload : Bytes
  deriving DecidableEq, Repr

/-- `n` in `k` big-endian bytes. -/
def beN : Nat → Nat → Bytes
  | 0, _ => []
  | k + 1, n => UInt8.ofNat (n / 256 ^ k % 256) :: beN k n

/-- The number written in big-endian bytes. -/
def nat (b : Bytes) : Nat := b.foldl (fun acc x => acc * 256 + x.toNat) 0

/-- One tag and the PreviousTagSize field after it: type, 24-bit data size, low 24 bits and high 8 bits of the
timestamp, three zero bytes of stream id, the data, the size of the tag. -/
def TagRec.bytes (t : TagRec) : Bytes :=
  UInt8.ofNat t.type :: beN 3 t.payload.length ++ beN 3 (t.time % 2 ^ 24) ++ beN 1 (t.time / 2 ^ 24) ++ [0, 0, 0] ++
    t.payload ++ beN 4 (11 + t.payload.length)

/-- Values that fit the fields. -/
def TagRec.Fits (t : TagRec) : Prop := t.type < 256 ∧ t.time < 2 ^ 32 ∧ t.payload.length < 2 ^ 24

/-- The file header (version 1, 9 bytes) and the first PreviousTagSize, which is 0. -/
def header (video audio : Bool) : Bytes :=
  [0x46, 0x4c, 0x56, 1, (if audio then 4 else 0) + (if video then 1 else 0), 0, 0, 0, 9, 0, 0, 0, 0]

/-- The first tag of the data and what follows its PreviousTagSize field. -/
def readTag (b : Bytes) : Option (TagRec × Bytes) :=
  let n := nat ((b.drop 1).take 3)
  if b.length < 15 + n then none
  else if (b.drop 8).take 3 ≠ [0, 0, 0] then none
  else if nat ((b.drop (11 + n)).take 4) ≠ 11 + n then none
  else some (⟨nat (b.take 1), nat ((b.drop 7).take 1) * 2 ^ 24 + nat ((b.drop 4).take 3), (b.drop 11).take n⟩, b.drop (15 + n))

/-- All tags of the data, front to back (`fuel` bounds their number). -/
def readTags : Nat → Bytes → Option (List TagRec)
  | _, [] => some []
  | 0, _ => none
  | fuel + 1, b => match readTag b with
    | some (t, r) => (readTags fuel r).map (t :: ·)
    | none => none

/-- All tags of the data, found back to front by following the PreviousTagSize fields. -/
def readBack : Nat → Bytes → Option (List TagRec)
  | _, [] => some []
  | 0, _ => none
  | fuel + 1, b =>
    let n := nat (b.drop (b.length - 4))
    if b.length < n + 4 then none
    else match readTag (b.drop (b.length - (n + 4))) with
      | some (t, []) => (readBack fuel (b.take (b.length - (n + 4)))).map (· ++ [t])
      | _ => none

/-- A whole file: the two stream flags and the tags, read both ways. -/
def readFile (b : Bytes) : Option (Bool × Bool × List TagRec) :=
  match b with
  | 0x46 :: 0x4c :: 0x56 :: 1 :: f :: 0 :: 0 :: 0 :: 9 :: 0 :: 0 :: 0 :: 0 :: r =>
    match readTags r.length r, readBack r.length r with
    | some ts, some ts' => if ts = ts' then some (f % 2 == 1, f / 4 % 2 == 1, ts) else none
    | _, _ => none
  | _ => none

/-- The script data of "onMetaData" and the AMF0 value whose bytes are `v`. -/
def onMetaData (v : Bytes) : Bytes := [2, 0, 10, 111, 110, 77, 101, 116, 97, 68, 97, 116, 97] ++ v

end Verif.Spec.Flv
