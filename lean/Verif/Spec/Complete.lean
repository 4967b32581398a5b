import Verif.Spec.Authentic
import Verif.Spec.KeyHistory

/-! # Specification: genuine reception

What a receiver must have been given for navigation data to be authenticated, in terms of the calls
made, written without reference to the state of the library. -/

namespace Verif
variable {C : Crypto}

/-- The pages that satellite `prna` sent in subframe `g`, in the order in which they were fed. -/
def pagesIn (hist : List Call) (prna : Svn) (g : Gst) : List Page :=
  (pagesOf hist).filter (fun p => p.svn == prna && p.sub == g)

/-- The MACK message `msg` of satellite `prna` in subframe `g`, sent with NMA status `st`, was received
whole: the pages 0 to 14 were fed in this order (some of them may have been fed more than once), and
every page fed for this satellite and subframe has the corresponding four bytes of `msg`, page 0 starting
with the two bits of the status. -/
structure WholeMack (hist : List Call) (prna : Svn) (g : Gst) (st : NmaStatus) (msg : MackMessage) : Prop where
  words : (List.range 15).Sublist ((pagesIn hist prna g).map Page.word)
  mack : ∀ p ∈ pagesIn hist prna g, p.mack = (msg.val.drop (4 * p.word)).take 4
  status : ∀ p ∈ pagesIn hist prna g, p.word = 0 → bitField p.hkroot 0 2 = nmasCode st

/-- Pages and words were fed in chronological order of subframes, no word is from a later subframe than
`now`, and the storage has room for the pages of all the satellites heard in each subframe. -/
structure InOrder (S : Storage) (hist : List Call) (now : Gst) : Prop where
  pages : (pagesOf hist).Pairwise (fun p q => p.sub.abs ≤ q.sub.abs)
  words : Chronological (inavsOf hist)
  noneAhead : ∀ c ∈ inavsOf hist, c.gst.subframe.abs ≤ now.abs
  roomPages : ∀ g : Gst, ∃ sats : List Svn, sats.length ≤ S.numSats ∧ ∀ p ∈ pagesOf hist, p.sub = g → p.svn ∈ sats

/-- The words fed up to the end of the subframe that starts at `t`. -/
def wordsUpTo (hist : List Call) (t : Int) : List InavCall :=
  (inavsOf hist).filter (fun c => decide (c.gst.subframe.abs ≤ t))

/-- The MACK message is right under key `k`: the MACSEQ verifies, the look-up table has an entry for each
tag, and each tag is of the kind the entry asks for. -/
def MackRight (C : Crypto) (k : Key) (c : Chain) (msg : MackMessage) (prna : Svn) (g : Gst) : Prop :=
  k.MacUsable ∧ ∃ slots, icdSlots k.chain.maclt (minuteHalf g) = some slots ∧
    slots.length = (480 - 8 * c.keySizeBytes) / (c.tagSizeBits + 16) ∧
    MacseqOk C k msg c.tagSizeBits slots prna g ∧
    ∀ j, 1 ≤ j → j < (480 - 8 * c.keySizeBytes) / (c.tagSizeBits + 16) →
      ∃ s, slots[j]? = some s ∧ s.Allows prna (mackTag (bitsOf msg.val) c.tagSizeBits prna j)

/-- The tag `u` was received and is a genuine tag of the data `bits` of satellite `svn`: the data is what
was received of this satellite up to the end of the subframe before the tag's, each part of it not more than COP
subframes before the tag's. -/
structure TagUse.Genuine (C : Crypto) (S : Storage) (slow : Bool) (hist : List Call) (kd : NavKind) (svn : Svn) (bits : List Bool)
    (u : TagUse) : Prop where
  prnd : u.tag.prnd = svn.val
  status : u.st = .Test ∨ u.st = .Operational
  rightKey : u.RightKey slow kd
  verifies : u.tag.Verifies C u.key u.prna u.gst u.st bits
  mack : ∃ msg, WholeMack hist u.prna u.gst u.st msg ∧ u.tag ∈ mackTags msg u.key.chain u.prna ∧
    ∀ (vk : Key) (n : Nat), vk.chain = u.key.chain → vk.gst.abs = u.gst.abs + 30 →
      Derives C u.key.chain n (u.key.gst, u.key.bytes) (vk.gst, vk.bytes) → MackRight C vk u.key.chain msg u.prna u.gst
  /-- The data of the previous subframe. -/
  data : kd.expected (wordsUpTo hist (u.gst.abs - 30)) svn = bits
  recent : ∀ f ∈ kd.fields, ∃ c ∈ inavsOf hist, c.svn = svn ∧ kd.carries c f = true ∧
    c.gst.subframe.abs ≤ u.gst.abs - 30 ∧ u.gst.abs - 30 * u.tag.cop ≤ c.gst.subframe.abs
  /-- Some word was received in the previous subframe. -/
  alive : ∃ c ∈ inavsOf hist, c.gst.subframe.abs = u.gst.abs - 30
  /-- The storage is deep enough. -/
  depthNav : u.key.gst.abs - u.gst.abs + 30 < 30 * S.navDepth
  depthMack : u.key.gst.abs - u.gst.abs < 30 * S.mackDepth

/-- The chain in force did not change after the time `t`: if the last DSM-KROOT verified announces another chain than the one before
it, then it was received at `t` at the latest. -/
def NoChangeAfter (log : List (KeyEvent C)) (t : Int) : Prop :=
  ∀ l₁ h data pk key g l₂, log = l₁ ++ .kroot h data pk key g :: l₂ → (∀ e ∈ l₂, e.header? = none) →
    ∀ h', lastHeader l₁ = some h' → h'.chainId ≠ h.chainId → g.abs ≤ t

/-- Call number `i` of the history reported the TESLA key of `u` as new, and by then `u` was a genuine tag of
the data `bits` of satellite `svn`.  (For Slow MAC: the chain in force did not change after the subframe that follows the
tag's.) -/
def TagDue (S : Storage) (o0 : Osnma C) (slow : Bool) (hist : List Call) (kd : NavKind) (svn : Svn) (bits : List Bool) (i : Nat)
    (u : TagUse) : Prop :=
  ∃ (log : List (KeyEvent C)) (o : Osnma C) (c : Call), hist[i]? = some c ∧ Logs S o0 (hist.take i) log o ∧
    KeyEvent.tesla u.key ∈ o.events S c ∧ InOrder S (hist.take (i + 1)) u.key.gst ∧
    u.Genuine C S slow (hist.take (i + 1)) kd svn bits ∧
    (u.tag.adkd = 12 → NoChangeAfter (log ++ o.events S c) (u.gst.abs + 30))

end Verif
