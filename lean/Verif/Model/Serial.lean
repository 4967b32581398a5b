import Verif.Model.Galmon
import Verif.Model.Text

/-! # The serial link: `bin/osnma-longan-nano-client.rs` and `osnma-longan-nano/src/main.rs` -/

namespace Verif

/-! ## The client -/

/-- `Serial::send_common` (`osnma-longan-nano-client.rs:44-58`): the bytes written. -/
def sendCommon (svn : Nat) (gst : Gst) (band : InavBand) : List Byte :=
  let band := match band with
    | .E1B => ascii "1"
    | .E5B => ascii "5"
  decimal svn ++ ascii " " ++ decimal gst.wn ++ ascii " " ++ decimal gst.tow ++ ascii " " ++ band ++ ascii " "

/-- `Serial::send_inav` (`osnma-longan-nano-client.rs:60-64`). -/
def sendInav (inav : InavWord) (svn : Nat) (gst : Gst) (band : InavBand) : List Byte :=
  sendCommon svn gst band ++ hexEncode inav.val ++ ascii "\r\n"

/-- `Serial::send_osnma` (`osnma-longan-nano-client.rs:66-76`). -/
def sendOsnma (osnma : OsnmaDataMessage) (svn : Nat) (gst : Gst) (band : InavBand) : List Byte :=
  sendCommon svn gst band ++ hexEncode osnma.val ++ ascii "\r\n"

/-- The variables of `main` (`osnma-longan-nano-client.rs:84-85`), and the lines sent so far; before each line
`read_until_ready` waits for the firmware (see `Model/Link.lean`). -/
structure Client where
  sel : Selector
  sent : List (List Byte)

/-- The body of the loop of `osnma-longan-nano-client.rs:88-143`, for the field `gi` of a packet.  `usize::try_from(u32)` (l.122)
does not fail. -/
def Client.step (checks : Bool) (s : Client) (gi : Option GalileoInav) : Res Client :=
  match gi with
  | none => .ok s
  | some i =>
    match i.sigid with
    | none => .ok s
    | some sigid => do
      let (sel, gst?) ← s.sel.accept checks i
      let s := { s with sel := sel }
      match gst? with
      | none => pure s
      | some gst =>
        match bandOf sigid with
        | none => pure s
        | some band => do
          let ty ← firstType i.contents
          if ty = 63 then pure s
          else do
            let word ← toArray 16 i.contents
            let s := { s with sent := s.sent ++ [sendInav word i.gnssSv.toNat gst band] }
            match i.reserved1 with
            | none => pure s
            | some d => do
              let data ← toArray 5 d
              pure { s with sent := s.sent ++ [sendOsnma data i.gnssSv.toNat gst band] }

/-- `main` of `osnma-longan-nano-client.rs:83-147`; I/O errors of the serial port are not modelled. -/
def clientMain (N : Navmon) (checks : Bool) (input : Source) : Res (Client × Option IoError) := do
  let (ms, e) ← (ReadTransport.new input).packets N
  let s ← loopM (Client.step checks) (ms.map N.gi) ⟨.new, []⟩
  pure (s, e)

/-! ## The firmware -/

/-- `Board::rx_line` (`osnma-longan-nano/src/main.rs:57-73`) from position `j` on, with the bytes that arrive on the
serial port: length of the line, `rx_buffer`, and the bytes not read.  `none`: waits for more bytes.
Errors of the serial port (l.60, `unwrap`) are not modelled. -/
def rxLineFrom (buffer : List Byte) (j : Nat) (input : List Byte) : Option (Nat × List Byte × List Byte) :=
  if j = 256 then some (256, buffer, input)
  else
    match input with
    | [] => none
    | c :: rest =>
      if c = 0x0a#8 then rxLineFrom buffer j rest
      else if c = 0x0d#8 then some (j, buffer, rest)
      else rxLineFrom (buffer.set j c) (j + 1) rest

/-- `Svn` as text (`svn.rs:82-86`). -/
def Svn.text (s : Svn) : List Byte := ascii "E" ++ decimal02 s.val

/-- `OsnmaInterface` (`osnma-longan-nano/src/main.rs:76-79`).  `tx` (what was written to the serial port) and `calls` (the calls made on
`osnma`) are the observable effects, in order. -/
structure Firmware (C : Crypto) where
  osnma : Osnma C
  rxBuffer : List Byte
  tx : List Byte
  calls : List Call

/-- `OsnmaInterface::new` (`osnma-longan-nano/src/main.rs:52-55, 82-88`) on the constructed black box. -/
def Firmware.new {C : Crypto} (o : Osnma C) : Firmware C := ⟨o, List.replicate 256 0#8, [], []⟩

section
variable {C : Crypto} (S : Storage)

/-- `write!(&mut self.board.tx, ..).unwrap()`; errors of the serial port are not modelled. -/
def Firmware.write (f : Firmware C) (b : List Byte) : Firmware C := { f with tx := f.tx ++ b }

/-- A call on the black box. -/
def Firmware.call (f : Firmware C) (c : Call) : Res (Firmware C) := do
  let o ← c.run S f.osnma
  pure { f with osnma := o, calls := f.calls ++ [c] }

/-- `words.next().unwrap()` (`osnma-longan-nano/src/main.rs:94-97, 104`). -/
def nextWord (ws : List (List Nat)) : Res (List Nat × List (List Nat)) :=
  match ws with
  | w :: ws => .ok (w, ws)
  | [] => .panic "words.next().unwrap()"

/-- `OsnmaInterface::process_line` (`osnma-longan-nano/src/main.rs:90-118`).  `usize` has 32 bits. -/
def Firmware.processLine (f : Firmware C) (len : Nat) : Res (Firmware C) := do
  let line ← slice f.rxBuffer 0 len
  let text ← Res.unwrap (utf8 line) "core::str::from_utf8(..).unwrap()"
  let (w, ws) ← nextWord (splitWhitespace [] text)
  let n ← Res.unwrap (parseUint (2 ^ 32) w) "parse::<usize>().unwrap()"
  let svn ← Res.unwrap (Svn.tryFrom n) "Svn::try_from(..).unwrap()"
  let (w, ws) ← nextWord ws
  let wn ← Res.unwrap (parseUint (2 ^ 16) w) "parse::<u16>().unwrap()"
  let (w, ws) ← nextWord ws
  let tow ← Res.unwrap (parseUint (2 ^ 32) w) "parse::<u32>().unwrap()"
  let (w, ws) ← nextWord ws
  let bandNum ← Res.unwrap (parseUint (2 ^ 8) w) "parse::<u8>().unwrap()"
  let band ← if bandNum = 1 then .ok InavBand.E1B else if bandNum = 5 then .ok InavBand.E5B else .panic "panic!()"
  let gst ← if h : wn < 65536 then Gst.new wn tow h else .panic "u16"
  let (data, _) ← nextWord ws
  let f := f.write (svn.text ++ ascii " WN " ++ decimal wn ++ ascii " TOW " ++ decimal tow ++ ascii " E" ++ decimal bandNum ++ ascii "B ")
  if strLen data = 16 * 2 then do
    let inav ← hexDecodeTo 16 data
    let f := f.write (ascii "INAV\r\n")
    f.call S (.inav inav svn gst band)
  else if strLen data = (1 + 4) * 2 then do
    let osnma ← hexDecodeTo (1 + 4) data
    let f := f.write (ascii "OSNMA\r\n")
    f.call S (.osnma osnma svn gst)
  else pure f

/-- One of the loops of `print_auth_status` (`osnma-longan-nano/src/main.rs:122-128`, `136-142`): the text, and whether there was some data. -/
def authStatus (get : Svn → Res (Option NavMessageData)) : Res (List Byte × Bool) :=
  loopM (fun (s : List Byte × Bool) svn => do
    match ← get svn with
    | some data => pure (s.1 ++ ascii " " ++ svn.text ++ ascii " TOW " ++ decimal data.gst.tow, true)
    | none => pure s) Svn.iter ([], false)

/-- `OsnmaInterface::print_auth_status` (`osnma-longan-nano/src/main.rs:120-149`). -/
def Firmware.printAuthStatus (f : Firmware C) : Res (Firmware C) := do
  let f := f.write (ascii "AUTH ADKD=4")
  let (text, some4) ← authStatus (f.osnma.getTimingParameters S)
  let f := f.write (text ++ (if some4 then [] else ascii " NONE") ++ ascii "\r\n")
  let f := f.write (ascii "AUTH ADKD=0")
  let (text, some0) ← authStatus (f.osnma.getCedAndStatus S)
  pure (f.write (text ++ (if some0 then [] else ascii " NONE") ++ ascii "\r\n"))

/-- `OsnmaInterface::spin` (`osnma-longan-nano/src/main.rs:155-160`) with the bytes that arrive: the new state and the bytes not read.
If the bytes do not complete a line the firmware waits in `rx_line`: the result is then `none`. -/
def Firmware.spin (f : Firmware C) (input : List Byte) : Res (Option (Firmware C × List Byte)) :=
  let f := f.write (ascii "READY\r\n")
  match rxLineFrom f.rxBuffer 0 input with
  | none => .ok none
  | some (len, buffer, rest) => do
    let f := { f with rxBuffer := buffer }
    let f ← f.processLine S len
    let f ← f.printAuthStatus S
    pure (some (f, rest))

/-- The loop of `main` (`osnma-longan-nano/src/main.rs:178-180`), `n` times: `none` if it waits for more bytes before. -/
def Firmware.spins (f : Firmware C) : Nat → List Byte → Res (Option (Firmware C × List Byte))
  | 0, input => .ok (some (f, input))
  | n + 1, input => do
    match ← f.spin S input with
    | none => pure none
    | some (f, rest) => Firmware.spins f n rest

end

end Verif
