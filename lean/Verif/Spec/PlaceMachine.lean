import Verif.Spec.NavMachine

/-! # Specification: the reference machine with places

The machine of `Spec/NavMachine.lean` for any number of satellites: each subframe has, for each kind of data, `numSats` places, and a
satellite may lose its place to another. -/

namespace Verif
variable {C : Crypto}

/-! ## Places -/

/-- A place that is taken: by which satellite, the words received since then (those of all the satellites, the first being its own), the
bits that were in the place before, and the authentication bits. -/
structure Place where
  svn : Svn
  words : List InavCall
  before : List Bool
  auth : Nat

/-- The last copy of each of the fields in the words `ws`; for a field that they do not bring, the bits that were there before. -/
def NavKind.overlay (kd : NavKind) (ws : List InavCall) (v : Svn) : List NavField → List Bool → List Bool
  | [], _ => []
  | f :: fs, b => ((kd.latest ws v f).elim (b.take f.len) f.bits) ++ overlay kd ws v fs (b.drop f.len)

namespace Place

/-- The data in the place. -/
def data (kd : NavKind) (p : Place) : List Bool := kd.overlay p.words p.svn kd.fields p.before

/-- Age of the oldest field, of those received since the place was taken. -/
def oldest (kd : NavKind) (p : Place) : Nat := kd.oldestAge p.words p.svn

/-- Age of the newest field. -/
def newest (kd : NavKind) (p : Place) : Nat := kd.newestAge p.words p.svn

/-- A word is received (of any satellite). -/
def hear (c : InavCall) (p : Place) : Place := { p with words := p.words ++ [c] }

/-- The place into which the word goes: if its satellite had it, with its authentication bits if the data does not change; if it was
free or another satellite had it, with the bits that were there. -/
def fed (kd : NavKind) (c : InavCall) : Option Place → Place
  | none => ⟨c.svn, [c], List.replicate kd.nbits false, 0⟩
  | some p =>
    if p.svn = c.svn then { p.hear c with auth := if (p.hear c).data kd = p.data kd then p.auth else 0 }
    else ⟨c.svn, [c], p.data kd, 0⟩

end Place

/-- The word of satellite `v` goes to place number `i`: its own; if it has none, the last of the free ones; if there is none, the one with
the oldest field, and of several the last. -/
inductive GoesTo (kd : NavKind) (v : Svn) (ps : List (Option Place)) : Nat → Prop
  | own (i : Nat) (p : Place) (h : ps[i]? = some (some p)) (hv : p.svn = v) : GoesTo kd v ps i
  | free (i : Nat) (hno : ∀ p, some p ∈ ps → p.svn ≠ v) (h : ps[i]? = some none) (hlast : ∀ j, i < j → ps[j]? ≠ some none) : GoesTo kd v ps i
  | oldest (i : Nat) (p : Place) (hno : ∀ q, some q ∈ ps → q.svn ≠ v) (hfull : none ∉ ps) (h : ps[i]? = some (some p))
      (hold : ∀ q, some q ∈ ps → q.oldest kd ≤ p.oldest kd) (hlast : ∀ j q, i < j → ps[j]? = some (some q) → q.oldest kd < p.oldest kd) :
      GoesTo kd v ps i

/-- The places after a word. -/
def WordPlaced (kd : NavKind) (c : InavCall) (ps ps' : List (Option Place)) : Prop :=
  ∃ i x, GoesTo kd c.svn (ps.map (Option.map (Place.hear c))) i ∧ ps[i]? = some x ∧
    ps' = (ps.map (Option.map (Place.hear c))).set i (some (Place.fed kd c x))

/-! ## Subframes -/

/-- A subframe with words: its start and the places. -/
structure PlaceFrame where
  gst : Gst
  places : NavKind → List (Option Place)

/-- The subframes (most recent first) after a word: the word belongs to the current subframe or starts a new one, which begins with the
places of the one before; at most `navDepth` subframes are kept. -/
inductive WordHeard (S : Storage) (c : InavCall) : List PlaceFrame → List PlaceFrame → Prop
  | first (ps : NavKind → List (Option Place)) (h : ∀ kd, WordPlaced kd c (List.replicate S.numSats none) (ps kd)) :
      WordHeard S c [] [⟨c.gst.subframe, ps⟩]
  | next (f : PlaceFrame) (fs : List PlaceFrame) (ps : NavKind → List (Option Place)) (h : ∀ kd, WordPlaced kd c (f.places kd) (ps kd)) :
      WordHeard S c (f :: fs) (⟨c.gst.subframe, ps⟩ :: (if f.gst = c.gst.subframe then fs else (f :: fs).take (S.navDepth - 1)))

/-! ## Tags -/

/-- The tag counts for the data in the place `p`: it was sent with status test or operational, it is not a dummy tag, it is for the satellite
that has the place, which also had one in the subframe before the tag's, with the same data, all the fields of which were received not more
than COP subframes before the tag's, and the tag is the truncated MAC of it. -/
def TagUse.CountsForPlace (C : Crypto) (fs : List PlaceFrame) (kd : NavKind) (p : Place) (u : TagUse) : Prop :=
  (u.st = .Test ∨ u.st = .Operational) ∧ u.tag.cop ≠ 0 ∧ u.tag.prnd = p.svn.val ∧
    ∃ y ∈ fs, y.gst.abs = u.gst.abs - 30 ∧ ∃ q, some q ∈ y.places kd ∧ q.svn = p.svn ∧ q.oldest kd + 1 ≤ u.tag.cop ∧
      p.data kd = q.data kd ∧ u.tag.Verifies C u.key u.prna u.gst u.st (p.data kd)

open Classical in
/-- Total length of the tags that count. -/
noncomputable def gainForPlace (C : Crypto) (fs : List PlaceFrame) (us : List TagUse) (kd : NavKind) (p : Place) : Nat :=
  (us.map (fun u => if u.CountsForPlace C fs kd p then u.tag.tag.length else 0)).sum

/-- The place after checking the tags `us`: the length of the tags that count is added to the authentication bits, up to 65535. -/
noncomputable def Place.checked (C : Crypto) (fs : List PlaceFrame) (us : List TagUse) (kd : NavKind) (p : Place) : Place :=
  { p with auth := min 65535 (p.auth + gainForPlace C fs us kd p) }

/-- The subframes after checking the tags `us`. -/
noncomputable def placesChecked (C : Crypto) (us : NavKind → List TagUse) (fs : List PlaceFrame) : List PlaceFrame :=
  fs.map (fun f => ⟨f.gst, fun kd => (f.places kd).map (Option.map (Place.checked C fs (us kd) kd))⟩)

/-- As `KeyUsed`. -/
inductive KeyUsedPlaces (S : Storage) (slow : Bool) (macks : List MackCall) (log : List (KeyEvent C)) (fs : List PlaceFrame) :
    List (KeyEvent C) → List PlaceFrame → Prop
  | none : KeyUsedPlaces S slow macks log fs [] fs
  | key (k : Key) (t1 t10 t11 : Gst) (h1 : t1.abs = k.gst.abs - 30) (h10 : t10.abs = k.gst.abs - 300) (h11 : t11.abs = k.gst.abs - 330) :
      KeyUsedPlaces S slow macks log fs [.tesla k] (placesChecked C (tagsDue S slow macks log k t1 t10 t11) fs)

/-! ## The machine -/

/-- The messages and the subframes of the machine after the calls of a history. -/
inductive PlaceMachine (root0 : Option MerkleTreeNode) (pk0 : Option (PublicKey C)) (S : Storage) (slow : Bool) :
    List Call → List Received → List (KeyEvent C) → List PlaceFrame → Prop
  | nil : PlaceMachine root0 pk0 S slow [] [] [] []
  /-- A navigation word. -/
  | word {hist : List Call} {rs : List Received} {log : List (KeyEvent C)} {fs fs' : List PlaceFrame} (c : InavCall)
      (h : PlaceMachine root0 pk0 S slow hist rs log fs) (hw : WordHeard S c fs fs') :
      PlaceMachine root0 pk0 S slow (hist ++ [.inav c.word c.svn c.gst c.band]) rs log fs'
  /-- All-zero OSNMA data (the satellite does not transmit OSNMA). -/
  | zero {hist : List Call} {rs : List Received} {log : List (KeyEvent C)} {fs : List PlaceFrame} (p : Page)
      (h : PlaceMachine root0 pk0 S slow hist rs log fs) (hz : p.data.val.all (fun x => x == 0#8) = true) :
      PlaceMachine root0 pk0 S slow (hist ++ [.osnma p.data p.svn p.gst]) rs log fs
  /-- A page that does not complete the messages of a subframe. -/
  | page {hist : List Call} {rs : List Received} {log : List (KeyEvent C)} {fs : List PlaceFrame} (p : Page)
      (h : PlaceMachine root0 pk0 S slow hist rs log fs) (hz : p.data.val.all (fun x => x == 0#8) = false)
      (hn : ∀ r, ¬ CompletesSubframe (pagesOf hist) p r) :
      PlaceMachine root0 pk0 S slow (hist ++ [.osnma p.data p.svn p.gst]) rs log fs
  /-- A page that completes them: as in `KeyMachine`, and the tags are checked if a TESLA key is accepted. -/
  | subframe {hist : List Call} {rs : List Received} {log l₁ l₂ : List (KeyEvent C)} {fs fs' : List PlaceFrame} (p : Page) (r : Received)
      (h : PlaceMachine root0 pk0 S slow hist rs log fs) (hz : p.data.val.all (fun x => x == 0#8) = false)
      (hr : CompletesSubframe (pagesOf hist) p r)
      (h₁ : Exactly (fun e => ∃ data, CompletesDsmWith (rs.map Received.dsmCall) r.dsmCall data ∧ DsmMessage root0 pk0 log r data e) l₁)
      (h₂ : Exactly (fun e => ∃ k, e = .tesla k ∧ TeslaMessage (log ++ l₁) r k) l₂)
      (h₃ : KeyUsedPlaces S slow ((rs ++ [r]).map Received.mackCall) (log ++ l₁ ++ l₂) fs l₂ fs') :
      PlaceMachine root0 pk0 S slow (hist ++ [.osnma p.data p.svn p.gst]) (rs ++ [r]) (log ++ l₁ ++ l₂) fs'

/-- What is authenticated of a satellite: the data, the authentication bits and the time of the newest field in the most recent
subframe in which it has a place with at least 40 authentication bits. -/
def authenticatedIn (fs : List PlaceFrame) (kd : NavKind) (v : Svn) : Option (List Bool × Nat × Int) :=
  fs.findSome? (fun f => ((f.places kd).find? (fun x => x.any (fun p => decide (p.svn = v ∧ 40 ≤ p.auth)))).bind
    (fun x => x.map (fun p => (p.data kd, p.auth, f.gst.abs - 30 * (p.newest kd : Int)))))

end Verif
