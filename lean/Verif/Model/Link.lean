import Verif.Model.Serial

/-! # The client and the firmware running concurrently over the serial link

A transition system with one step per byte.  Each direction of the link delivers bytes in order, after any delay; the
two programs run asynchronously.  Errors of the serial port are not modelled. -/

namespace Verif

/-- `"READY\r\n"` (`osnma-longan-nano-client.rs:38`, `osnma-longan-nano/src/main.rs:152`). -/
def READY : List Byte := ascii "READY\r\n"

/-- Where the firmware is. -/
inductive FwCtl
  /-- In `rx_line` (`osnma-longan-nano/src/main.rs:57-73`), at index `j` of the loop. -/
  | reading (j : Nat)
  /-- In `process_line` and `print_auth_status` (`osnma-longan-nano/src/main.rs:157-158`), with what `rx_line` returned. -/
  | processing (len : Nat)
  /-- Writing to the serial port; `out` is what is still to be written. -/
  | writing (out : List Byte)
  /-- After a panic (`panic_halt`). -/
  | halted
  deriving DecidableEq

/-- Where the client is. -/
inductive ClientCtl
  /-- In `read_until_ready` (`osnma-longan-nano-client.rs:33-42`); `part` is what `read_line` has read so far. -/
  | waiting (part : List Byte)
  /-- In `send_inav` or `send_osnma` (`osnma-longan-nano-client.rs:60-76`); `rest` is what is still to be written. -/
  | sending (rest : List Byte)
  deriving DecidableEq

/-- The two programs and the link. -/
structure Link (C : Crypto) where
  fw : Firmware C
  fwCtl : FwCtl
  clientCtl : ClientCtl
  /-- The lines that the client has not begun to send. -/
  todo : List (List Byte)
  /-- The bytes sent by the client that the firmware has not read. -/
  toFw : List Byte
  /-- The bytes sent by the firmware that the client has not read. -/
  toClient : List Byte
  /-- What the client has printed: each line it has read (`osnma-longan-nano-client.rs:37`).  Not read by the programs. -/
  shown : List Byte

variable {C : Crypto} (S : Storage)

/-- The firmware enters the loop of `main` and calls `ready` (`osnma-longan-nano/src/main.rs:151-153, 156, 178-180`); the client
calls `read_until_ready` before its first line (`osnma-longan-nano-client.rs:137, 140`). -/
def Link.init (o : Osnma C) (lines : List (List Byte)) : Link C :=
  ⟨(Firmware.new o).write READY, .writing READY, .waiting [], lines, [], [], []⟩

/-- A byte is read in `rx_line` (`osnma-longan-nano/src/main.rs:58-72`): the new buffer and place. -/
def rxByte (buffer : List Byte) (j : Nat) (c : Byte) : List Byte × FwCtl :=
  if c = 0x0a#8 then (buffer, .reading j)
  else if c = 0x0d#8 then (buffer, .processing j)
  else if j + 1 = 256 then (buffer.set j c, .processing 256)
  else (buffer.set j c, .reading (j + 1))

/-- What the firmware has written about a line when `process_line` panics: the echo, which is written before the black box is called (`osnma-longan-nano/src/main.rs:106-116`) and does not
depend on its state.  Simplified: what is written of the echo of a line that cannot be processed for any state of the black box is left out. -/
def Firmware.Echoed (S : Storage) (f : Firmware C) (len : Nat) (said : List Byte) : Prop :=
  (∃ (o' : Osnma C) (f' : Firmware C), Firmware.processLine S { f with osnma := o' } len = .ok f' ∧ f'.tx = f.tx ++ said) ∨
    (said = [] ∧ ¬ ∃ (o' : Osnma C) (f' : Firmware C), Firmware.processLine S { f with osnma := o' } len = .ok f')

/-- What one of the loops of `print_auth_status` (`osnma-longan-nano/src/main.rs:122-128`, `136-142`) writes: all of it if it returns, else what comes before the panic. -/
def authStatusSaid (get : Svn → Res (Option NavMessageData)) : List Svn → List Byte
  | [] => []
  | svn :: l =>
    match get svn with
    | .panic _ => []
    | .ok none => authStatusSaid get l
    | .ok (some data) => ascii " " ++ svn.text ++ ascii " TOW " ++ decimal data.gst.tow ++ authStatusSaid get l

/-- What `print_auth_status` (`osnma-longan-nano/src/main.rs:120-149`) writes: all of it if it returns, else what comes before the panic. -/
def Firmware.statusSaid (S : Storage) (f : Firmware C) : List Byte :=
  ascii "AUTH ADKD=4" ++ authStatusSaid (f.osnma.getTimingParameters S) Svn.iter ++
    match authStatus (f.osnma.getTimingParameters S) with
    | .panic _ => []
    | .ok (_, some4) => (if some4 then [] else ascii " NONE") ++ ascii "\r\n" ++
      (ascii "AUTH ADKD=0" ++ authStatusSaid (f.osnma.getCedAndStatus S) Svn.iter ++
        match authStatus (f.osnma.getCedAndStatus S) with
        | .panic _ => []
        | .ok (_, some0) => (if some0 then [] else ascii " NONE") ++ ascii "\r\n")

/-- What the firmware has written about a line at which it panics, in `process_line` or in `print_auth_status`. -/
def Firmware.SaidAtPanic (S : Storage) (f : Firmware C) (len : Nat) (said : List Byte) : Prop :=
  ((f.processLine S len).Panics ∧ f.Echoed S len said) ∨
    ∃ f1, f.processLine S len = .ok f1 ∧ (f1.printAuthStatus S).Panics ∧ said = f1.tx.drop f.tx.length ++ f1.statusSaid S

/-- The steps. -/
inductive Link.Step (S : Storage) : Link C → Link C → Prop
  /-- The firmware writes a byte; after the last one it is in `rx_line`. -/
  | fwEmit {s : Link C} {b : Byte} {out : List Byte} : s.fwCtl = .writing (b :: out) →
    Step S s { s with toClient := s.toClient ++ [b], fwCtl := if out = [] then .reading 0 else .writing out }
  /-- The firmware reads a byte. -/
  | fwRead {s : Link C} {j : Nat} {c : Byte} {rest : List Byte} : s.fwCtl = .reading j → s.toFw = c :: rest →
    Step S s { s with fw := { s.fw with rxBuffer := (rxByte s.fw.rxBuffer j c).1 }, fwCtl := (rxByte s.fw.rxBuffer j c).2, toFw := rest }
  /-- The firmware processes a line; it will write the echo, the status and, in the next pass of the loop, `READY`. -/
  | fwProcess {s : Link C} {len : Nat} {f1 f2 : Firmware C} : s.fwCtl = .processing len → s.fw.processLine S len = .ok f1 →
    f1.printAuthStatus S = .ok f2 →
    Step S s { s with fw := f2.write READY, fwCtl := .writing ((f2.write READY).tx.drop s.fw.tx.length) }
  /-- The firmware panics; what it has written before is on the link at once, since it does nothing more. -/
  | fwPanic {s : Link C} {len : Nat} {said : List Byte} : s.fwCtl = .processing len →
    s.fw.SaidAtPanic S len said →
    Step S s { s with fw := s.fw.write said, fwCtl := .halted, toClient := s.toClient ++ said }
  /-- The client, which has a line to send, reads a byte; the line that it ends is printed, and if it is `READY` the client starts sending
  (`osnma-longan-nano-client.rs:33-42`). -/
  | clientRead {s : Link C} {part : List Byte} {line : List Byte} {todo : List (List Byte)} {b : Byte} {rest : List Byte} :
    s.clientCtl = .waiting part → s.todo = line :: todo → s.toClient = b :: rest →
    Step S s (if b = 0x0a#8 then
        if part ++ [b] = READY then { s with clientCtl := .sending line, todo := todo, toClient := rest, shown := s.shown ++ (part ++ [b]) }
        else { s with clientCtl := .waiting [], toClient := rest, shown := s.shown ++ (part ++ [b]) }
      else { s with clientCtl := .waiting (part ++ [b]), toClient := rest })
  /-- The client writes a byte. -/
  | clientSend {s : Link C} {b : Byte} {rest : List Byte} : s.clientCtl = .sending (b :: rest) →
    Step S s { s with toFw := s.toFw ++ [b], clientCtl := if rest = [] then .waiting [] else .sending rest }

/-- The states that can be reached. -/
inductive Link.Reaches (S : Storage) : Link C → Link C → Prop
  | refl (s : Link C) : Reaches S s s
  | step {s t u : Link C} : Reaches S s t → Link.Step S t u → Reaches S s u

end Verif
