import Verif.Model.History

/-! # `galmon/mod.rs` and the programs that use it

`galileo-osnma/src/galmon/mod.rs` (transport protocol), `bin/galmon-filter-inav.rs`,
`bin/galmon-osnma.rs` and the part of `bin/osnma-longan-nano-client.rs` that selects packets. -/

namespace Verif

/-- `GalileoInav` (`galmon/navmon.proto:28-43`, generated by `prost`): `uint32`, `bytes` and optional fields.
`gnss_id`, `reserved2`, `sar`, `spare`, `crc` and `ssp` are only written by the test vector
converter and never read. -/
structure GalileoInav where
  gnssWn : BitVec 32
  gnssTow : BitVec 32
  gnssId : BitVec 32
  gnssSv : BitVec 32
  contents : List Byte
  sigid : Option (BitVec 32)
  reserved1 : Option (List Byte)
  reserved2 : Option (List Byte)
  sar : Option (List Byte)
  spare : Option (List Byte)
  crc : Option (List Byte)
  ssp : Option (BitVec 32)
  deriving DecidableEq

/-- The code generated by `prost` for `NavMonMessage` (`galmon/mod.rs:17`, `galmon/navmon.proto`): the type of
messages, `Message::encode`, `Message::decode(..).ok()` and the field `gi`; `ofInav i` is the message of
`osnma-test-vectors-to-galmon.rs:96-107` (all other fields at a constant or default).
Arbitrary functions; `Navmon.Lawful` states what the theorems assume of them. -/
structure Navmon where
  Msg : Type
  encode : Msg → List Byte
  decode : List Byte → Option Msg
  gi : Msg → Option GalileoInav
  ofInav : GalileoInav → Msg

/-- Decoding an encoded message gives it back (for messages that fit a frame), and the field `gi` of a built message is the one given.
`prostNavmon_lawful` (`Lemmas/Prost.lean`) proves this of the messages of `navmon.proto`. -/
structure Navmon.Lawful (N : Navmon) : Prop where
  decode_encode : ∀ m, (N.encode m).length ≤ 65535 → N.decode (N.encode m) = some m
  gi_ofInav : ∀ i, N.gi (N.ofInav i) = some i

/-- The kinds of `std::io::Error` that the code distinguishes. -/
inductive IoError where
  | unexpectedEof
  | invalidData
  | other
  deriving DecidableEq, Repr

/-- A `std::io::Read`: the bytes it still delivers, and whether after them it fails with an
I/O error (`true`) or is at end of file (`false`).  How the bytes are split among calls of `read` is not
visible through `read_exact`. -/
structure Source where
  bytes : List Byte
  fails : Bool
  deriving DecidableEq

/-- `Read::read_exact` into a buffer of `n` bytes: the bytes read (all that are left if they are less than `n`). -/
def Source.readExact (r : Source) (n : Nat) : Source × List Byte × Option IoError :=
  ({ r with bytes := r.bytes.drop n }, r.bytes.take n,
    if n ≤ r.bytes.length then none else if r.fails then some .other else some .unexpectedEof)

/-- `ReadTransport` (`galmon/mod.rs:32-35`). -/
structure ReadTransport where
  read : Source
  buffer : List Byte
  deriving DecidableEq

/-- `ReadTransport::new` (`galmon/mod.rs:39-44`). -/
def ReadTransport.new (r : Source) : ReadTransport := ⟨r, List.replicate 2048 0#8⟩

/-- The magic value `b"bert"` (`galmon/mod.rs:62, 121`). -/
def MAGIC : List Byte := [98#8, 101#8, 114#8, 116#8]

/-- `self.read.read_exact(&mut self.buffer[..n])` (`galmon/mod.rs:53, 73`): slicing panics if the buffer is shorter. -/
def ReadTransport.fill (t : ReadTransport) (n : Nat) : Res (ReadTransport × Option IoError) := do
  let _ ← slice t.buffer 0 n
  let (r, got, e) := t.read.readExact n
  let buffer ← writeSlice t.buffer 0 got
  pure (⟨r, buffer⟩, e)

/-- `ReadTransport::read_packet` (`galmon/mod.rs:51-89`). -/
def ReadTransport.readPacket (N : Navmon) (t : ReadTransport) :
    Res (ReadTransport × Except IoError (Option N.Msg)) := do
  let (t, e) ← t.fill 6
  match e with
  | some .unexpectedEof => pure (t, .ok none)
  | some e => pure (t, .error e)
  | none => do
    let magic ← slice t.buffer 0 4
    if magic ≠ MAGIC then pure (t, .error .invalidData)
    else do
      let sz ← slice t.buffer 4 6
      let size := loadBe (bitsOf sz)
      let t := if size > t.buffer.length then
          { t with buffer := t.buffer ++ List.replicate (size - t.buffer.length) 0#8 } else t
      let (t, e) ← t.fill size
      match e with
      | some e => pure (t, .error e)
      | none => do
        let frame ← slice t.buffer 0 size
        match N.decode frame with
        | some f => pure (t, .ok (some f))
        | none => pure (t, .error .invalidData)

/-- A `std::io::Write`: what was written, and how many more bytes it takes before failing (`none`: it never fails). -/
structure Sink where
  data : List Byte
  room : Option Nat
  deriving DecidableEq

/-- `Write::write_all`. -/
def Sink.writeAll (w : Sink) (b : List Byte) : Sink × Option IoError :=
  match w.room with
  | none => (⟨w.data ++ b, none⟩, none)
  | some r =>
    if b.length ≤ r then (⟨w.data ++ b, some (r - b.length)⟩, none)
    else (⟨w.data ++ b.take r, some 0⟩, some .other)

/-- `WriteTransport::write_packet` (`galmon/mod.rs:113-142`) on the underlying writer; the internal buffer is cleared at each
call (l.122), so it is not part of the state, and its capacity is not observable.  `encoded_len` (l.114) is the
length of the encoding, and `encode` into a `BytesMut` does not fail.  `u16::try_from(size).unwrap()` (l.122) panics. -/
def writePacket (N : Navmon) (w : Sink) (packet : N.Msg) : Res (Sink × Except IoError Nat) :=
  let body := N.encode packet
  if body.length < 65536 then
    let buffer := MAGIC ++ beBytes 2 body.length ++ body
    match w.writeAll buffer with
    | (w, none) => .ok (w, .ok buffer.length)
    | (w, some e) => .ok (w, .error e)
  else .panic "u16::try_from(size).unwrap()"

theorem ReadTransport.fill_read {t t' : ReadTransport} {n : Nat} {e : Option IoError} (h : t.fill n = .ok (t', e)) :
    t'.read = { t.read with bytes := t.read.bytes.drop n } ∧ (e = none → n ≤ t.read.bytes.length) := by
  unfold fill at h
  simp only [Source.readExact, Res.bind_eq_ok, Res.pure_eq, Res.ok.injEq, Prod.mk.injEq] at h
  obtain ⟨_, _, _, _, rfl, rfl⟩ := h
  refine ⟨rfl, fun h => ?_⟩
  split at h
  · assumption
  · split at h <;> cases h

/-- Reading a packet consumes input (used as termination argument below). -/
theorem ReadTransport.readPacket_consumes {N : Navmon} {t t' : ReadTransport} {m : N.Msg}
    (h : t.readPacket N = .ok (t', .ok (some m))) : t'.read.bytes.length < t.read.bytes.length := by
  unfold readPacket at h
  obtain ⟨⟨t1, e1⟩, h1, h⟩ := Res.bind_eq_ok.1 h
  obtain ⟨hr1, hl1⟩ := fill_read h1
  cases e1 with
  | some e => cases e <;> simp at h
  | none =>
    simp only at h
    obtain ⟨magic, h2, h⟩ := Res.bind_eq_ok.1 h
    split at h
    · simp at h
    obtain ⟨sz, h3, h⟩ := Res.bind_eq_ok.1 h
    obtain ⟨⟨t2, e2⟩, h4, h⟩ := Res.bind_eq_ok.1 h
    obtain ⟨hr2, hl2⟩ := fill_read h4
    have hle : t2.read.bytes.length ≤ t1.read.bytes.length := by
      rw [hr2]
      split <;> simp
    have : t1.read.bytes.length + 6 = t.read.bytes.length := by
      have := hl1 rfl
      rw [hr1]; simp; omega
    cases e2 with
    | some e => simp at h
    | none =>
      simp only at h
      obtain ⟨frame, h5, h⟩ := Res.bind_eq_ok.1 h
      cases hd : N.decode frame with
      | none => rw [hd] at h; simp at h
      | some f =>
        rw [hd] at h
        simp only [Res.pure_eq, Res.ok.injEq, Prod.mk.injEq] at h
        rw [← h.1]
        omega

/-- The loop `while let Some(packet) = read.read_packet()? { .. }` (`galmon-filter-inav.rs:10`, `galmon-osnma.rs:99`,
`osnma-longan-nano-client.rs:87`): the packets for which the body is run, and the error that ends the loop if any. -/
def ReadTransport.packets (N : Navmon) (t : ReadTransport) : Res (List N.Msg × Option IoError) :=
  match _h : t.readPacket N with
  | .panic w => .panic w
  | .ok (_, .error e) => .ok ([], some e)
  | .ok (_, .ok none) => .ok ([], none)
  | .ok (t', .ok (some m)) => do
    let (ms, e) ← t'.packets N
    pure (m :: ms, e)
termination_by t.read.bytes.length
decreasing_by exact readPacket_consumes _h

/-- The body of the loop of `galmon-filter-inav.rs:10-14` (`?` ends the program at the first write error). -/
def filterStep (N : Navmon) (s : Sink × Option IoError) (m : N.Msg) : Res (Sink × Option IoError) :=
  match s with
  | (w, some e) => .ok (w, some e)
  | (w, none) =>
    match N.gi m with
    | none => .ok (w, none)
    | some _ => do
      match ← writePacket N w m with
      | (w, .ok _) => .ok (w, none)
      | (w, .error e) => .ok (w, some e)

/-- `main` of `galmon-filter-inav.rs:6-16`: what is on the output, and the error with which it exits if any. -/
def filterInavMain (N : Navmon) (input : Source) (output : Sink) : Res (Sink × Option IoError) := do
  let (ms, e) ← (ReadTransport.new input).packets N
  match ← loopM (filterStep N) ms (output, none) with
  | (w, some e') => pure (w, some e')
  | (w, none) => pure (w, e)

/-! ## Selection of packets (`galmon-osnma.rs:94-169`, `osnma-longan-nano-client.rs:84-135`) -/

/-- Addition of two `u16`: overflow panics when overflow checks are enabled, and otherwise wraps. -/
def addU16 (checks : Bool) (a b : Nat) : Res (BitVec 16) :=
  if checks && 65536 ≤ a + b then .panic "attempt to add with overflow" else .ok (BitVec.ofNat 16 (a + b))

/-- `Wn::try_from(x).unwrap()` for a `u32`. -/
def wnOf (x : Nat) : Res Nat := if x < 65536 then .ok x else .panic "Wn::try_from(..).unwrap()"

/-- The GST of a packet and the new value of `last_tow_mod_30` (`galmon-osnma.rs:109-132`,
`osnma-longan-nano-client.rs:97-114`). -/
def packetTime (checks : Bool) (last : Nat) (i : GalileoInav) : Res (Gst × Nat) := do
  let tow := i.gnssTow.toNat % 604800
  let wn0 ← wnOf i.gnssWn.toNat
  let wn1 ← wnOf (i.gnssTow.toNat / 604800)
  let wn ← addU16 checks wn0 wn1
  let tow := if tow % 30 = 15 ∧ last ≥ 19 then tow + (29 - 15) else tow
  let gst ← Gst.new wn.toNat tow wn.isLt
  pure (gst, tow % 30)

/-- The local variables `current_subframe` and `last_tow_mod_30` (`galmon-osnma.rs:96-97`, `osnma-longan-nano-client.rs:84-85`). -/
structure Selector where
  current : Option Gst
  last : Nat
  deriving DecidableEq

/-- Initial values (`galmon-osnma.rs:96-97`). -/
def Selector.new : Selector := ⟨none, 0⟩

/-- From the GST of a packet to the check against the current subframe (`galmon-osnma.rs:109-147`,
`osnma-longan-nano-client.rs:97-121`): the GST if the packet is not dropped. -/
def Selector.accept (checks : Bool) (s : Selector) (i : GalileoInav) : Res (Selector × Option Gst) := do
  let (gst, last) ← packetTime checks s.last i
  match s.current with
  | some current =>
    if gst.subframe.ltb current then pure (⟨some current, last⟩, none)
    else pure (⟨some gst.subframe, last⟩, some gst)
  | none => pure (⟨some gst.subframe, last⟩, some gst)

/-- `match sigid` (`galmon-osnma.rs:149-156`, `osnma-longan-nano-client.rs:123-129`). -/
def bandOf (sigid : BitVec 32) : Option InavBand :=
  if sigid = 1 then some .E1B else if sigid = 5 then some .E5B else none

/-- `inav_word[0] >> 2` (`galmon-osnma.rs:165`, `osnma-longan-nano-client.rs:132`). -/
def firstType (w : List Byte) : Res Nat := do
  let b ← index w 0
  pure (b.toNat / 4)

/-- `x[..].try_into().unwrap()` from `Vec<u8>` to `&[u8; n]` (`galmon-osnma.rs:171, 173`). -/
def toArray (n : Nat) (l : List Byte) : Res (Bytes n) :=
  if h : l.length = n then .ok ⟨l, h⟩ else .panic "try_into().unwrap()"

/-! ## `galmon-osnma` -/

/-- A line logged for new authenticated data (`galmon-osnma.rs:187-193` and `206-211`): which data, satellite, contents,
`authbits` and GST. -/
structure Report where
  timing : Bool
  svn : Svn
  data : NavMessageData
  deriving DecidableEq

/-- The variables of `main` (`galmon-osnma.rs:81-97`).  `calls` (the calls made on `osnma`) and `reports` (the lines logged)
are the observable effects, in order; the program does not read them. -/
structure GalmonOsnma (C : Crypto) where
  osnma : Osnma C
  timing : List (Option (List Byte))
  ced : List (Option (List Byte))
  sel : Selector
  calls : List Call
  reports : List Report

/-- Before the loop (`galmon-osnma.rs:94-97`). -/
def GalmonOsnma.new {C : Crypto} (o : Osnma C) : GalmonOsnma C :=
  ⟨o, List.replicate NUM_SVNS none, List.replicate NUM_SVNS none, .new, [], []⟩

section
variable {C : Crypto} (S : Storage)

/-- One call on the black box. -/
def GalmonOsnma.call (g : GalmonOsnma C) (c : Call) : Res (GalmonOsnma C) := do
  let o ← c.run S g.osnma
  pure { g with osnma := o, calls := g.calls ++ [c] }

/-- `let mut data_bytes = [0u8; n]; a[..b.len()].copy_from_bitslice(b)` (`galmon-osnma.rs:179-182`, `198-201`). -/
def dataBytes (n : Nat) (bits : List Bool) : Res (List Byte) := do
  let a ← writeSlice (List.replicate (8 * n) false) 0 bits
  pure (packBytes a)

/-- `galmon-osnma.rs:178-196` for one satellite. -/
def GalmonOsnma.reportCed (g : GalmonOsnma C) (svn : Svn) : Res (GalmonOsnma C) := do
  match ← g.osnma.getCedAndStatus S svn with
  | none => pure g
  | some data => do
    let bytes ← dataBytes 69 data.data
    let old ← index g.ced svn.idx
    if old = some bytes then pure g
    else do
      let ced ← setIndex g.ced svn.idx (some bytes)
      pure { g with ced := ced, reports := g.reports ++ [⟨false, svn, data⟩] }

/-- `galmon-osnma.rs:197-214` for one satellite. -/
def GalmonOsnma.reportTiming (g : GalmonOsnma C) (svn : Svn) : Res (GalmonOsnma C) := do
  match ← g.osnma.getTimingParameters S svn with
  | none => pure g
  | some data => do
    let bytes ← dataBytes 18 data.data
    let old ← index g.timing svn.idx
    if old = some bytes then pure g
    else do
      let timing ← setIndex g.timing svn.idx (some bytes)
      pure { g with timing := timing, reports := g.reports ++ [⟨true, svn, data⟩] }

/-- `galmon-osnma.rs:171-174`. -/
def GalmonOsnma.feed (g : GalmonOsnma C) (i : GalileoInav) (svn : Svn) (gst : Gst) (band : InavBand) :
    Res (GalmonOsnma C) := do
  let word ← toArray 16 i.contents
  let g ← g.call S (.inav word svn gst band)
  match i.reserved1 with
  | none => pure g
  | some d => do
    let data ← toArray 5 d
    g.call S (.osnma data svn gst)

/-- `galmon-osnma.rs:176-215`. -/
def GalmonOsnma.report (g : GalmonOsnma C) : Res (GalmonOsnma C) :=
  loopM (fun g svn => do
    let g ← g.reportCed S svn
    g.reportTiming S svn) Svn.iter g

/-- The body of the loop of `galmon-osnma.rs:100-216`, for the field `gi` of a packet. -/
def GalmonOsnma.step (checks : Bool) (g : GalmonOsnma C) (gi : Option GalileoInav) : Res (GalmonOsnma C) :=
  match gi with
  | none => .ok g
  | some i =>
    match i.sigid with
    | none => .ok g
    | some sigid => do
      let (sel, gst?) ← g.sel.accept checks i
      let g := { g with sel := sel }
      match gst? with
      | none => pure g
      | some gst => do
        let svn ← Res.unwrap (Svn.tryFrom i.gnssSv.toNat) "Svn::try_from(inav.gnss_sv).unwrap()"
        match bandOf sigid with
        | none => pure g
        | some band => do
          let ty ← firstType i.contents
          if ty = 63 then pure g
          else do
            let g ← g.feed S i svn gst band
            g.report S

/-- `main` of `galmon-osnma.rs:93-219` on a constructed black box, with storage `FullStorage` (l.81): final state and the error
with which it exits if any.  The input is read ahead of the processing, which makes no difference since
neither affects the other. -/
def galmonOsnmaMain (N : Navmon) (checks : Bool) (o : Osnma C) (input : Source) :
    Res (GalmonOsnma C × Option IoError) := do
  let (ms, e) ← (ReadTransport.new input).packets N
  let g ← loopM (GalmonOsnma.step S checks) (ms.map N.gi) (.new o)
  pure (g, e)

end

end Verif
