import Verif.Spec.Authentic
import Verif.Spec.DsmSpec

/-! # Specification: a reference machine for the acceptance of keys

The machine sees the pages of a history, the trust anchors given at construction and the messages it has
already emitted, nothing else: no storage sizes, no navigation data, no state of the library. -/

namespace Verif
variable {C : Crypto}

/-! ## Subframes received -/

/-- The HKROOT and MACK messages of a satellite in a subframe. -/
structure Received where
  svn : Svn
  hkroot : HkrootMessage
  mack : MackMessage
  gst : Gst

/-- The first page with word `n`, then the next one with word `n + 1`, and so on. -/
def inOrder (n : Nat) : List Page → List Page
  | [] => []
  | p :: ps => if p.word = n then p :: inOrder (n + 1) ps else inOrder n ps

/-- After the pages `before`, the page `p` completes the messages `r`: `p` has the last word (14) of its subframe, and, among
the pages of its satellite since the subframe last changed, the words 0 to 13 were found in order and word 14 not yet. -/
structure CompletesSubframe (before : List Page) (p : Page) (r : Received) : Prop where
  svn : r.svn = p.svn
  last : p.word = 14
  words : (inOrder 0 ((sinceSubframe before p.sub).filter (fun q => q.svn == p.svn))).length = 14
  hkroot : r.hkroot.val = (inOrder 0 ((sinceSubframe before p.sub).filter (fun q => q.svn == p.svn)) ++ [p]).flatMap Page.hkroot
  mack : r.mack.val = (inOrder 0 ((sinceSubframe before p.sub).filter (fun q => q.svn == p.svn)) ++ [p]).flatMap Page.mack
  gst : r.gst = p.sub

/-- The subframes completed by the pages of a history, in order. -/
inductive ReceivedIn : List Page → List Received → Prop
  | nil : ReceivedIn [] []
  | skip {ps : List Page} {rs : List Received} (p : Page) (h : ReceivedIn ps rs) (hn : ∀ r, ¬ CompletesSubframe ps p r) :
      ReceivedIn (ps ++ [p]) rs
  | got {ps : List Page} {rs : List Received} (p : Page) (r : Received) (h : ReceivedIn ps rs) (hr : CompletesSubframe ps p r) :
      ReceivedIn (ps ++ [p]) (rs ++ [r])

/-- The NMA header: the first byte of the HKROOT message. -/
def Received.header (r : Received) : NmaHeader := ⟨r.hkroot.val.headD 0⟩

/-- The DSM header and block: the second byte of the HKROOT message and the other 13. -/
def Received.dsmCall (r : Received) : DsmCall :=
  ⟨⟨(r.hkroot.val.drop 1).headD 0⟩, ⟨r.hkroot.val.drop 2, by rw [List.length_drop, r.hkroot.property]⟩⟩

/-! ## DSMs completed -/

/-- After the blocks `before`, the block `p` completes a DSM with these bytes: since the DSM id last changed, all the announced
blocks were received with `p` and not without it; the bytes are the first blocks received with each number. -/
structure CompletesDsmWith (before : List DsmCall) (p : DsmCall) (data : List Byte) : Prop where
  notYet : ¬ Complete p.header.dsmId (sinceId before p.header.dsmId)
  now : ∃ n, CompleteWith p.header.dsmId (sinceId before p.header.dsmId ++ [p]) n ∧ data.length = 13 * n ∧
    ∀ i, i < n → ∃ b, firstBlock (sinceId before p.header.dsmId ++ [p]) i = some b ∧ byteField data (13 * i) 13 = b.val

/-! ## TESLA keys held -/

/-- The key is of chain `c`. -/
def ofChain (c : Nat) (k : Option Key) : Bool := k.any (fun k => k.chain.id == c)

/-- Forgets the key of a place if it is of chain `c`. -/
def dropChain (c : Nat) (k : Option Key) : Option Key := if ofChain c k then none else k

/-- The keys after a verified KROOT under the header `h`: if no key of its chain is held, the root key takes a free place, or that
of a key that is not of the chain in force according to the header. -/
def addKroot (h : NmaHeader) (key : Key) (held : Option Key × Option Key) : Option Key × Option Key :=
  if ofChain key.chain.id held.1 ∨ ofChain key.chain.id held.2 then held
  else if held.1 = none then (some key, held.2)
  else if held.2 = none then (held.1, some key)
  else if ofChain h.chainId held.1 then (held.1, some key)
  else (some key, held.2)

/-- The TESLA keys held after a message, in two places.  An alert drops both; a header that revokes a chain drops its key; a
TESLA key replaces the one of its chain. -/
def teslaAfter (held : Option Key × Option Key) : KeyEvent C → Option Key × Option Key
  | .kroot h _ _ key _ =>
    if h.cpks = .AlertMessage then (none, none)
    else if h.nmaStatus = .DontUse ∧ (h.cpks = .ChainRevoked ∨ h.cpks = .PublicKeyRevoked) then
      (dropChain h.chainId (addKroot h key held).1, dropChain h.chainId (addKroot h key held).2)
    else addKroot h key held
  | .pkr _ _ => held
  | .alert _ => (none, none)
  | .tesla k => (if ofChain k.chain.id held.1 then some k else held.1, if ofChain k.chain.id held.2 then some k else held.2)

/-- The TESLA keys held after the messages of a run. -/
def teslaHeld (log : List (KeyEvent C)) : Option Key × Option Key := log.foldl teslaAfter (none, none)

/-- The key in force: the one held of the chain in force according to the last verified header. -/
def InForce (log : List (KeyEvent C)) (k : Key) : Prop :=
  ((teslaHeld log).1 = some k ∨ (teslaHeld log).2 = some k) ∧ ∃ h, lastHeader log = some h ∧ h.chainId = k.chain.id

/-- The chain in force after a message, and since when: the chain of the last verified
header, and the time of that message if the header before it announced another chain. -/
def forceStep (f : Option ChainInForce) : KeyEvent C → Option ChainInForce
  | .kroot h _ _ _ g =>
    if h.cpks = .AlertMessage then none
    else some ⟨h.chainId, f.bind (fun cif => if cif.cid ≠ h.chainId then some g else none)⟩
  | .alert _ => none
  | _ => f

/-- The chain in force after the messages of a run. -/
def force (log : List (KeyEvent C)) : Option ChainInForce := log.foldl forceStep none

/-! ## Messages -/

/-- The 32 bytes of a key are its bytes followed by zeros. -/
def Key.ZeroPadded (k : Key) : Prop := k.data.val = k.bytes ++ List.replicate (32 - k.chain.keySizeBytes) 0#8

/-- The message to be emitted for a completed DSM. -/
inductive DsmMessage (root0 : Option MerkleTreeNode) (pk0 : Option (PublicKey C)) (log : List (KeyEvent C)) (r : Received)
    (data : List Byte) : KeyEvent C → Prop
  /-- DSM-KROOT (ids 0 to 11): correctly signed with the held public key that it names. -/
  | kroot (pk : PublicKey C) (key : Key) (hid : r.dsmCall.header.dsmId < 12)
      (hpk : (keysHeld pk0 log).1 = some pk ∨ (keysHeld pk0 log).2 = some pk) (hname : pk.pkid = bitField data 4 4)
      (hsig : ∃ f n, SignedKroot C pk.key r.header data f n) (hkey : AnnouncedKey data key) (hpad : key.ZeroPadded) :
      DsmMessage root0 pk0 log r data (.kroot r.header data pk key r.gst)
  /-- DSM-PKR (ids 12 to 15) with a key: proved against the Merkle tree root given at construction, if no alert was received. -/
  | pkr (root : MerkleTreeNode) (pk : PublicKey C) (hid : 12 ≤ r.dsmCall.header.dsmId) (hroot : root0 = some root)
      (hna : ¬ AlertIn log) (hpk : MerkleProvedKey C root.val data pk) :
      DsmMessage root0 pk0 log r data (.pkr data pk)
  /-- DSM-PKR with an alert. -/
  | alert (root : MerkleTreeNode) (leaf : List Byte) (hid : 12 ≤ r.dsmCall.header.dsmId) (hroot : root0 = some root)
      (hna : ¬ AlertIn log) (hty : bitField data 1032 4 = 4) (hleaf : PkrLeaf data leaf) (hp : MerkleProof C root.val data leaf) :
      DsmMessage root0 pk0 log r data (.alert data)

/-- The TESLA key to be accepted from the MACK message of a subframe: the key field, if 1 to 3000 applications of the one-way
function lead from it to the key in force. -/
structure TeslaMessage (log : List (KeyEvent C)) (r : Received) (k : Key) : Prop where
  gst : k.gst = r.gst
  bytes : k.bytes = packBytes (mackKeyField r.mack k.chain)
  pad : k.ZeroPadded
  derives : ∃ cur n, InForce log cur ∧ k.chain = cur.chain ∧ 1 ≤ n ∧ n ≤ 3000 ∧
    Derives C k.chain n (k.gst, k.bytes) (cur.gst, cur.bytes)

/-- The list of the messages that satisfy `P` (of which there is at most one). -/
def Exactly (P : KeyEvent C → Prop) (l : List (KeyEvent C)) : Prop :=
  (∃ e, P e ∧ l = [e]) ∨ (l = [] ∧ ∀ e, ¬ P e)

/-- The messages of the machine for the subframes `rs`: for each subframe, that of the DSM which it completes, then that of its
TESLA key. -/
inductive KeyMachine (root0 : Option MerkleTreeNode) (pk0 : Option (PublicKey C)) : List Received → List (KeyEvent C) → Prop
  | nil : KeyMachine root0 pk0 [] []
  | step {rs : List Received} {log l₁ l₂ : List (KeyEvent C)} (r : Received) (h : KeyMachine root0 pk0 rs log)
      (h₁ : Exactly (fun e => ∃ data, CompletesDsmWith (rs.map Received.dsmCall) r.dsmCall data ∧ DsmMessage root0 pk0 log r data e) l₁)
      (h₂ : Exactly (fun e => ∃ k, e = .tesla k ∧ TeslaMessage (log ++ l₁) r k) l₂) :
      KeyMachine root0 pk0 (rs ++ [r]) (log ++ l₁ ++ l₂)

end Verif
