import Verif.Spec.KeyMachine
import Verif.Spec.MackSpec

/-! # Specification: a reference machine for authenticated navigation data

The machine extends that of `Spec/KeyMachine.lean`: it also sees the navigation words.  It remembers, for each of the last
subframes with words, the words received up to its end and the authentication bits of each satellite. -/

namespace Verif
variable {C : Crypto}

/-! ## Ages -/

/-- The number of subframes later than `g` in which some word was received. -/
def laterSubframes (p : List InavCall) (g : Gst) : Nat :=
  ((p.map (fun c => c.gst.subframe)).filter (fun h => decide (g.abs < h.abs))).eraseDups.length

namespace NavKind

/-- Age of a field of a satellite after the words `p`: the number of subframes seen since its most recent copy, at most 255;
255 if it was never received. -/
def fieldAge (kd : NavKind) (p : List InavCall) (v : Svn) (f : NavField) : Nat :=
  match kd.latest p v f with
  | some c => min 255 (laterSubframes p c.gst.subframe)
  | none => 255

/-- Age of the oldest field. -/
def oldestAge (kd : NavKind) (p : List InavCall) (v : Svn) : Nat := (kd.fields.map (kd.fieldAge p v)).foldl max 0

/-- Age of the newest field. -/
def newestAge (kd : NavKind) (p : List InavCall) (v : Svn) : Nat := (kd.fields.map (kd.fieldAge p v)).foldl min 255

end NavKind

/-! ## Words -/

/-- A subframe with words: its start, the words received up to its end, the authentication bits. -/
structure NavFrame where
  gst : Gst
  words : List InavCall
  auth : NavKind → Svn → Nat

/-- Some word of the satellite was received up to the end of the subframe. -/
def NavFrame.Has (f : NavFrame) (v : Svn) : Prop := ∃ c ∈ f.words, c.svn = v

/-- The data of the satellite. -/
def NavFrame.data (f : NavFrame) (kd : NavKind) (v : Svn) : List Bool := kd.expected f.words v

/-- The subframes (most recent first) after a word: the word belongs to the current subframe or starts a new one; the authentication
bits are kept for the data that does not change; at most `depth` subframes are kept. -/
def wordReceived (depth : Nat) (c : InavCall) : List NavFrame → List NavFrame
  | [] => [⟨c.gst.subframe, [c], fun _ _ => 0⟩]
  | f :: fs =>
    ⟨c.gst.subframe, f.words ++ [c], fun kd v => if kd.expected (f.words ++ [c]) v = f.data kd v then f.auth kd v else 0⟩ ::
      (if f.gst = c.gst.subframe then fs else (f :: fs).take (depth - 1))

/-! ## Tags -/

/-- The MACK message that a subframe delivers. -/
def Received.mackCall (r : Received) : MackCall := ⟨r.mack, r.svn, r.gst, r.header.nmaStatus⟩

/-- The tag counts for the data of satellite `v` in the subframe `f`: it was sent with status test or operational, it is not a dummy
tag, it is for this satellite, the data is the same as that of the subframe before the tag's, all the fields of which were received not
more than COP subframes before the tag's, and the tag is the truncated MAC of it. -/
def TagUse.CountsFor (C : Crypto) (fs : List NavFrame) (kd : NavKind) (v : Svn) (f : NavFrame) (u : TagUse) : Prop :=
  (u.st = .Test ∨ u.st = .Operational) ∧ u.tag.cop ≠ 0 ∧ u.tag.prnd = v.val ∧ f.Has v ∧
    ∃ y ∈ fs, y.gst.abs = u.gst.abs - 30 ∧ y.Has v ∧ kd.oldestAge y.words v + 1 ≤ u.tag.cop ∧ f.data kd v = y.data kd v ∧
      u.tag.Verifies C u.key u.prna u.gst u.st (f.data kd v)

open Classical in
/-- Total length of the tags that count. -/
noncomputable def gainFor (C : Crypto) (fs : List NavFrame) (us : List TagUse) (kd : NavKind) (v : Svn) (f : NavFrame) : Nat :=
  (us.map (fun u => if u.CountsFor C fs kd v f then u.tag.tag.length else 0)).sum

/-- The subframes after checking the tags `us`: the length of the tags that count is added to the authentication bits, up to
65535. -/
noncomputable def tagsChecked (C : Crypto) (us : NavKind → List TagUse) (fs : List NavFrame) : List NavFrame :=
  fs.map (fun f => { f with auth := fun kd v => min 65535 (f.auth kd v + gainFor C fs (us kd) kd v f) })

/-- The MACK message of satellite `v` in the subframe `g` is accepted with the key `vk`, with field sizes of the chain `c`: the MAC
function can be used, the look-up table of the chain exists and has an entry for each tag, with no flexible slot beyond the last tag,
the MACSEQ verifies, and each tag is of the kind that its entry asks for. -/
def MackAccepted (C : Crypto) (vk : Key) (c : Chain) (msg : MackMessage) (v : Svn) (g : Gst) : Prop :=
  vk.MacUsable ∧ ∃ slots, icdSlots vk.chain.maclt (minuteHalf g) = some slots ∧
    (∀ j ∈ flexSlots slots, j < (480 - 8 * c.keySizeBytes) / (c.tagSizeBits + 16)) ∧
    MacseqOk C vk msg c.tagSizeBits slots v g ∧
    ∀ j, 1 ≤ j → j < (480 - 8 * c.keySizeBytes) / (c.tagSizeBits + 16) →
      ∃ s, slots[j]? = some s ∧ s.Allows v (mackTag (bitsOf msg.val) c.tagSizeBits v j)

open Classical in
/-- The tags with the given ADKD of the MACK message of satellite `v` in the subframe `g`, if it was received (and is not too old) and is
accepted with a key for which `ok` holds; they are checked with the key `k`. -/
noncomputable def acceptedTags (C : Crypto) (S : Storage) (macks : List MackCall) (k : Key) (ok : Key → Prop) (g : Gst) (adkd : Nat)
    (v : Svn) : List TagUse :=
  match expectedMack S macks v g with
  | none => []
  | some (msg, st) =>
    if ∃ vk, ok vk ∧ MackAccepted C vk k.chain msg v g then
      ((mackTags msg k.chain v).filter (fun t => t.adkd == adkd)).map (fun t => ⟨k, v, g, st, t⟩)
    else []

/-- The held key from which that of a past time `t` is to be derived: the one of the chain in force, or, for times before that chain
came into force, the other one. -/
def sourceKey (log : List (KeyEvent C)) (t : Gst) : Option Key :=
  match force log with
  | none => none
  | some ⟨c, start⟩ =>
    if start.any (fun g => decide (t.abs < g.abs)) then
      ((teslaHeld log).1.toList ++ (teslaHeld log).2.toList).find? (fun k => k.chain.id != c)
    else ((teslaHeld log).1.toList ++ (teslaHeld log).2.toList).find? (fun k => k.chain.id == c)

/-- The key of a past time `t`: derived from the held one. -/
def PastKey (log : List (KeyEvent C)) (t : Gst) (vk : Key) : Prop :=
  ∃ k n, sourceKey log t = some k ∧ vk.chain = k.chain ∧ vk.gst = t ∧ Derives C k.chain n (k.gst, k.bytes) (vk.gst, vk.bytes)

/-- The tags to be checked when the key `k` arrives, in subframe `t`: unless only Slow MAC is to be used, those of the MACK messages of
the previous subframe (at `t1`) with ADKD 0 and 4, accepted with `k` itself; those with ADKD 12 of the MACK messages of eleven subframes
before (at `t11`), accepted with the key of ten subframes before (at `t10`). -/
noncomputable def tagsDue (S : Storage) (slow : Bool) (macks : List MackCall) (log : List (KeyEvent C)) (k : Key) (t1 t10 t11 : Gst) :
    NavKind → List TagUse
  | .ced => Svn.iter.flatMap (fun v => (if slow then [] else acceptedTags C S macks k (· = k) t1 0 v)
      ++ acceptedTags C S macks k (PastKey log t10) t11 12 v)
  | .timing => Svn.iter.flatMap (fun v => if slow then [] else acceptedTags C S macks k (· = k) t1 4 v)

/-- The subframes after the messages `l` of the key machine, which end with a TESLA key if one was accepted; `log` are all the messages
with `l`. -/
inductive KeyUsed (S : Storage) (slow : Bool) (macks : List MackCall) (log : List (KeyEvent C)) (fs : List NavFrame) :
    List (KeyEvent C) → List NavFrame → Prop
  | none : KeyUsed S slow macks log fs [] fs
  | key (k : Key) (t1 t10 t11 : Gst) (h1 : t1.abs = k.gst.abs - 30) (h10 : t10.abs = k.gst.abs - 300) (h11 : t11.abs = k.gst.abs - 330) :
      KeyUsed S slow macks log fs [.tesla k] (tagsChecked C (tagsDue S slow macks log k t1 t10 t11) fs)

/-! ## The machine -/

/-- The messages and the subframes of the machine after the calls of a history. -/
inductive NavMachine (root0 : Option MerkleTreeNode) (pk0 : Option (PublicKey C)) (S : Storage) (slow : Bool) :
    List Call → List Received → List (KeyEvent C) → List NavFrame → Prop
  | nil : NavMachine root0 pk0 S slow [] [] [] []
  /-- A navigation word. -/
  | word {hist : List Call} {rs : List Received} {log : List (KeyEvent C)} {fs : List NavFrame} (c : InavCall)
      (h : NavMachine root0 pk0 S slow hist rs log fs) :
      NavMachine root0 pk0 S slow (hist ++ [.inav c.word c.svn c.gst c.band]) rs log (wordReceived S.navDepth c fs)
  /-- All-zero OSNMA data (the satellite does not transmit OSNMA). -/
  | zero {hist : List Call} {rs : List Received} {log : List (KeyEvent C)} {fs : List NavFrame} (p : Page)
      (h : NavMachine root0 pk0 S slow hist rs log fs) (hz : p.data.val.all (fun x => x == 0#8) = true) :
      NavMachine root0 pk0 S slow (hist ++ [.osnma p.data p.svn p.gst]) rs log fs
  /-- A page that does not complete the messages of a subframe. -/
  | page {hist : List Call} {rs : List Received} {log : List (KeyEvent C)} {fs : List NavFrame} (p : Page)
      (h : NavMachine root0 pk0 S slow hist rs log fs) (hz : p.data.val.all (fun x => x == 0#8) = false)
      (hn : ∀ r, ¬ CompletesSubframe (pagesOf hist) p r) :
      NavMachine root0 pk0 S slow (hist ++ [.osnma p.data p.svn p.gst]) rs log fs
  /-- A page that completes them: as in `KeyMachine`, and the tags are checked if a TESLA key is accepted. -/
  | subframe {hist : List Call} {rs : List Received} {log l₁ l₂ : List (KeyEvent C)} {fs fs' : List NavFrame} (p : Page) (r : Received)
      (h : NavMachine root0 pk0 S slow hist rs log fs) (hz : p.data.val.all (fun x => x == 0#8) = false)
      (hr : CompletesSubframe (pagesOf hist) p r)
      (h₁ : Exactly (fun e => ∃ data, CompletesDsmWith (rs.map Received.dsmCall) r.dsmCall data ∧ DsmMessage root0 pk0 log r data e) l₁)
      (h₂ : Exactly (fun e => ∃ k, e = .tesla k ∧ TeslaMessage (log ++ l₁) r k) l₂)
      (h₃ : KeyUsed S slow ((rs ++ [r]).map Received.mackCall) (log ++ l₁ ++ l₂) fs l₂ fs') :
      NavMachine root0 pk0 S slow (hist ++ [.osnma p.data p.svn p.gst]) (rs ++ [r]) (log ++ l₁ ++ l₂) fs'

/-- What is authenticated of a satellite: the data, the authentication bits and the time of the newest field in the most recent
subframe in which the data has at least 40 authentication bits. -/
def authenticated (fs : List NavFrame) (kd : NavKind) (v : Svn) : Option (List Bool × Nat × Int) :=
  (fs.find? (fun f => decide (40 ≤ f.auth kd v))).map
    (fun f => (f.data kd v, f.auth kd v, f.gst.abs - 30 * kd.newestAge f.words v))

end Verif
