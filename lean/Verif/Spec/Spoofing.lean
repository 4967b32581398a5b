import Verif.Spec.Broadcast
import Verif.Spec.TeslaSpec

/-! # Specification: a genuine broadcast among spoofed satellites

A receiver that already follows a genuine broadcast (`Spec/Broadcast.lean`) is fed with the pages of some genuine satellites, and with
anything at all under the numbers of the other satellites. -/

namespace Verif
variable {C : Crypto}

/-- After the calls `before`, in which the messages `log₁` were reported, come the calls `after`, during the broadcast.  The satellites `G`
are genuine. -/
structure Spoofed (b : Broadcast C) (G : Svn → Prop) (before : List Call) (log₁ : List (KeyEvent C)) (after : List Call) : Prop where
  /-- The OSNMA pages in `after` are in subframes of the broadcast, later than those in `before`. -/
  time : ∀ p ∈ pagesOf after, b.On p.sub
  later : ∀ p ∈ pagesOf before, ∀ q ∈ pagesOf after, p.sub.abs < q.sub.abs
  /-- Those of the satellites `G` are pages of the broadcast.  Nothing is said of the others. -/
  genuine : ∀ p ∈ pagesOf after, G p.svn → p.hkroot = ((b.hkroot p.svn p.sub).val.drop p.word).take 1 ∧
    p.mack = ((b.mack p.svn p.sub).val.drop (4 * p.word)).take 4
  /-- The last NMA header verified is that of the broadcast. -/
  header : lastHeader log₁ = some b.header
  /-- A key of the chain is held, and the keys of the broadcast lead to it in at most 3000 steps. -/
  held : ∃ k, ((teslaHeld log₁).1 = some k ∨ (teslaHeld log₁).2 = some k) ∧ k.chain.id = b.root.chain.id
  leads : ∀ q ∈ pagesOf after, ∀ k, (teslaHeld log₁).1 = some k ∨ (teslaHeld log₁).2 = some k → k.chain.id = b.root.chain.id →
    k.chain = b.root.chain ∧ ∃ n, 1 ≤ n ∧ n ≤ 3000 ∧ Derives C b.root.chain n (q.sub, (b.key q.sub).bytes) (k.gst, k.bytes)

/-- Of the messages reported after `log₁`, each verified DSM-KROOT has the NMA header of the broadcast, and none is an alert.
(Anything else takes a signature with the private key, or a proof of the Merkle tree, for another message.) -/
def SameHeader (b : Broadcast C) (log₁ log : List (KeyEvent C)) : Prop :=
  ∀ e ∈ log.drop log₁.length, (∀ h data pk k g, e = .kroot h data pk k g → h = b.header) ∧ ∀ data, e ≠ .alert data

/-- A TESLA key was reported that is not the one disclosed in its subframe by the broadcast; together with that one, it gives a
collision of the one-way function. -/
def ForgedKey (b : Broadcast C) (log : List (KeyEvent C)) : Prop :=
  ∃ k n, KeyEvent.tesla k ∈ log ∧ b.On k.gst ∧ k.chain = b.root.chain ∧
    DerivationsCollide C b.root.chain n k.gst k.bytes (b.key k.gst).bytes

end Verif
