import Verif.Spec.SerialSpec

/-! # Specification: what the firmware says in a session -/

namespace Verif

/-- What the firmware says while it makes calls on the black box `o`: `READY` at the start and, for each call, what it echoes, the status of the
timing parameters and of the CED after the call, and `READY` again. -/
inductive Transcript {C : Crypto} (S : Storage) (o : Osnma C) : List Call → List Byte → Prop
  | start : Transcript S o [] (ascii "READY\r\n")
  | call {cs : List Call} {text : List Byte} {c : Call} {o' : Osnma C} {echo timing ced : List Byte} : Transcript S o cs text →
    run S o (cs ++ [c]) = .ok o' → EchoOf c echo → StatusLine S o' .timing timing → StatusLine S o' .ced ced →
    Transcript S o (cs ++ [c]) (text ++ echo ++ timing ++ ced ++ ascii "READY\r\n")

/-- A status line that is cut off at the first satellite for which the getter panics: the satellites before it with authenticated data. -/
def StatusCut {C : Crypto} (S : Storage) (o : Osnma C) (kd : NavKind) (text : List Byte) : Prop :=
  ∃ (v : Svn) (l : List (Svn × NavMessageData)),
    (o.get S kd v).Panics ∧ (∀ u : Svn, u.val < v.val → ∃ r, o.get S kd u = .ok r) ∧
    (l.Pairwise fun a b => a.1.val < b.1.val) ∧ (∀ u d, (u, d) ∈ l ↔ u.val < v.val ∧ o.get S kd u = .ok (some d)) ∧
    text = (match kd with | .timing => ascii "AUTH ADKD=4" | .ced => ascii "AUTH ADKD=0") ++
      l.flatMap fun x => ascii " E" ++ dec2 x.1.val ++ ascii " TOW " ++ dec x.2.gst.tow

/-- The status of the timing parameters and of the CED, cut off where a getter panics. -/
def StatusCutOff {C : Crypto} (S : Storage) (o : Osnma C) (text : List Byte) : Prop :=
  StatusCut S o .timing text ∨ ∃ timing ced, StatusLine S o .timing timing ∧ StatusCut S o .ced ced ∧ text = timing ++ ced

end Verif
