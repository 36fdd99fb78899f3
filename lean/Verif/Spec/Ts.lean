import Verif.Spec.Crc
/-!
# Reading an MPEG transport stream (ISO/IEC 13818-1), independent of the muxer

Every reader is partial: `none` means that the bytes are not well formed.
-/
namespace Verif.Spec.Ts
open Verif

/-- A transport packet. -/
structure TsPacket where
  start : Bool                 -- payload_unit_start_indicator
  pid : Nat
  cc : Nat                     -- continuity_counter
  adaptation : Option Bytes    -- the adaptation field without its length byte
  payload : Bytes
  deriving DecidableEq, Repr

/-- One packet of 188 bytes, without transport error and not scrambled. -/
def parsePacket (b : Bytes) : Option TsPacket :=
  match b with
  | s :: b1 :: b2 :: b3 :: rest =>
    if s.toNat = 0x47 ∧ b.length = 188 ∧ b1.toNat < 128 ∧ b3.toNat < 64 then
      let start := decide (b1.toNat / 64 % 2 = 1)
      let pid := b1.toNat % 32 * 256 + b2.toNat
      let cc := b3.toNat % 16
      if b3.toNat / 16 = 1 then some ⟨start, pid, cc, none, rest⟩
      else if b3.toNat / 16 = 3 then
        match rest with
        | [] => none
        | l :: r => if l.toNat ≤ r.length then some ⟨start, pid, cc, some (r.take l.toNat), r.drop l.toNat⟩ else none
      else none
    else none
  | _ => none

/-- The packets of a stream; `n` bounds the number of packets. -/
def parseN : Nat → Bytes → Option (List TsPacket)
  | _, [] => some []
  | 0, _ :: _ => none
  | n + 1, b =>
    match parsePacket (b.take 188), parseN n (b.drop 188) with
    | some p, some ps => some (p :: ps)
    | _, _ => none

/-- The packets of a stream. -/
def parseStream (b : Bytes) : Option (List TsPacket) := parseN b.length b

/-- The contents of an adaptation field. -/
structure Adaptation where
  randomAccess : Bool
  pcr : Option (Nat × Nat)    -- base (90 kHz) and extension (27 MHz)
  deriving DecidableEq, Repr

/-- An adaptation field with at most a PCR, otherwise stuffed with 0xff. -/
def parseAdaptation (a : Bytes) : Option Adaptation :=
  match a with
  | [] => some ⟨false, none⟩
  | f :: r =>
    if f.toNat % 16 ≠ 0 ∨ f.toNat / 128 = 1 ∨ f.toNat / 32 % 2 = 1 then none
    else
      let ra := decide (f.toNat / 64 % 2 = 1)
      if f.toNat / 16 % 2 = 1 then
        match r with
        | p0 :: p1 :: p2 :: p3 :: p4 :: p5 :: s =>
          if s.all (· == 0xff) then
            some ⟨ra, some (p0.toNat * 2 ^ 25 + p1.toNat * 2 ^ 17 + p2.toNat * 2 ^ 9 + p3.toNat * 2 + p4.toNat / 128,
              p4.toNat % 2 * 256 + p5.toNat)⟩
          else none
        | _ => none
      else if r.all (· == 0xff) then some ⟨ra, none⟩ else none

/-- The PCR of a packet. -/
def pcrOf (p : TsPacket) : Option (Nat × Nat) :=
  match p.adaptation with
  | none => none
  | some a => match parseAdaptation a with
    | none => none
    | some x => x.pcr

/-- The payload carried by a list of packets. -/
def payload (ps : List TsPacket) : Bytes := ps.flatMap (·.payload)

/-- A PES packet with the header fields that goav uses. -/
structure Pes where
  streamId : Nat
  length : Nat          -- PES_packet_length
  pts : Nat
  dts : Option Nat
  data : Bytes
  deriving DecidableEq, Repr

/-- A 33-bit time stamp in five bytes; the marker bits must be set.  The four bits before it are not looked at
(see `stampPrefix`). -/
def parseStamp : Bytes → Option Nat
  | [a, b, c, d, e] =>
    if a.toNat % 2 = 1 ∧ c.toNat % 2 = 1 ∧ e.toNat % 2 = 1 then
      some (a.toNat / 2 % 8 * 2 ^ 30 + b.toNat * 2 ^ 22 + c.toNat / 2 * 2 ^ 15 + d.toNat * 2 ^ 7 + e.toNat / 2)
    else none
  | _ => none

/-- The four bits before a time stamp. -/
def stampPrefix (b : Bytes) : Option Nat := b.head?.map (·.toNat / 16)

/-- The optional header fields of a PES packet: flags byte and header data. -/
def parseStamps (flags : UInt8) (opt : Bytes) : Option (Nat × Option Nat) :=
  if flags.toNat = 0x80 then (parseStamp opt).map fun p => (p, none)
  else if flags.toNat = 0xc0 then
    match parseStamp (opt.take 5), parseStamp (opt.drop 5) with
    | some p, some d => some (p, some d)
    | _, _ => none
  else none

/-- A PES packet. -/
def parsePes (b : Bytes) : Option Pes :=
  match b with
  | z0 :: z1 :: o :: sid :: l1 :: l0 :: f1 :: f2 :: n :: rest =>
    if z0.toNat = 0 ∧ z1.toNat = 0 ∧ o.toNat = 1 ∧ f1.toNat = 0x80 ∧ n.toNat ≤ rest.length then
      match parseStamps f2 (rest.take n.toNat) with
      | some (p, d) => some ⟨sid.toNat, l1.toNat * 256 + l0.toNat, p, d, rest.drop n.toNat⟩
      | none => none
    else none
  | _ => none

/-! ## Sections -/

/-- A section in the long form. -/
structure Section where
  tableId : Nat
  ext : Nat             -- table_id_extension
  body : Bytes          -- what follows last_section_number, without the CRC
  deriving DecidableEq, Repr

/-- The section at the beginning of a payload with payload_unit_start: the pointer field is 0, the section is
current, the only one of its table, its CRC is right and the rest is 0xff. -/
def parseSection (payload : Bytes) : Option Section :=
  match payload with
  | ptr :: tid :: s1 :: s2 :: rest =>
    let n := s1.toNat % 16 * 256 + s2.toNat
    if ptr.toNat = 0 ∧ s1.toNat / 128 = 1 ∧ n ≤ rest.length ∧ (rest.drop n).all (· == 0xff) ∧ 9 ≤ n then
      if Crc.crc (tid :: s1 :: s2 :: rest.take n) = 0 then
        match rest with
        | e1 :: e0 :: v :: sn :: last :: r =>
          if v.toNat % 2 = 1 ∧ sn.toNat = 0 ∧ last.toNat = 0 then
            some ⟨tid.toNat, e1.toNat * 256 + e0.toNat, r.take (n - 9)⟩
          else none
        | _ => none
      else none
    else none
  | _ => none

/-- The programs of a PAT: program number and PID. -/
def parsePrograms : Bytes → Option (List (Nat × Nat))
  | [] => some []
  | n1 :: n0 :: p1 :: p0 :: r => (parsePrograms r).map ((n1.toNat * 256 + n0.toNat, p1.toNat % 32 * 256 + p0.toNat) :: ·)
  | _ => none

/-- The streams of a PMT without descriptors: type and PID. -/
def parseStreams : Bytes → Option (List (Nat × Nat))
  | [] => some []
  | t :: p1 :: p0 :: l1 :: l0 :: r =>
    if l1.toNat % 16 = 0 ∧ l0.toNat = 0 then
      (parseStreams r).map ((t.toNat, p1.toNat % 32 * 256 + p0.toNat) :: ·)
    else none
  | _ => none

/-- A PMT without program descriptors: the PCR PID and the streams. -/
def parsePmt : Bytes → Option (Nat × List (Nat × Nat))
  | q1 :: q0 :: l1 :: l0 :: r =>
    if l1.toNat % 16 = 0 ∧ l0.toNat = 0 then (parseStreams r).map ((q1.toNat % 32 * 256 + q0.toNat, ·)) else none
  | _ => none

/-- A PAT packet: its continuity counter and programs. -/
def parsePat (b : Bytes) : Option (Nat × Nat × List (Nat × Nat)) :=
  match parsePacket b with
  | some ⟨true, 0, cc, none, pl⟩ =>
    match parseSection pl with
    | some ⟨0x00, tsid, body⟩ => (parsePrograms body).map ((cc, tsid, ·))
    | _ => none
  | _ => none

/-- A PMT packet on PID 0x1001: its continuity counter, program number, PCR PID and streams. -/
def parsePmtPacket (b : Bytes) : Option (Nat × Nat × Nat × List (Nat × Nat)) :=
  match parsePacket b with
  | some ⟨true, 0x1001, cc, none, pl⟩ =>
    match parseSection pl with
    | some ⟨0x02, prog, body⟩ => (parsePmt body).map ((cc, prog, ·))
    | _ => none
  | _ => none

/-- An SDT packet on PID 0x11 with one service: its service id and descriptors. -/
def parseSdt (b : Bytes) : Option (Nat × Bytes) :=
  match parsePacket b with
  | some ⟨true, 0x11, _, none, pl⟩ =>
    match parseSection pl with
    | some ⟨0x42, _, _ :: _ :: _ :: s1 :: s0 :: _ :: l1 :: l0 :: d⟩ =>
      if l1.toNat % 16 * 256 + l0.toNat = d.length then some (s1.toNat * 256 + s0.toNat, d) else none
    | _ => none
  | _ => none

/-- Descriptors: tag and contents. -/
def parseDescriptors : Nat → Bytes → Option (List (Nat × Bytes))
  | _, [] => some []
  | 0, _ => none
  | n + 1, t :: l :: r =>
    if l.toNat ≤ r.length then (parseDescriptors n (r.drop l.toNat)).map ((t.toNat, r.take l.toNat) :: ·) else none
  | _, _ => none

/-- The contents of a service descriptor: service type, provider name and service name. -/
def parseService : Bytes → Option (Nat × Bytes × Bytes)
  | t :: pl :: r =>
    match r.drop pl.toNat with
    | nl :: r' => if nl.toNat = r'.length then some (t.toNat, r.take pl.toNat, r') else none
    | [] => none
  | _ => none

end Verif.Spec.Ts
