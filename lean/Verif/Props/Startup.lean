import Verif.Spec.StartSpec
import Verif.Lemmas.SerialExact
import Verif.Props.Authentic
import Verif.Props.Reports
import Verif.Props.SerialGrammar
import Verif.Tests.Scenario

/-! # Start-up (C66) -/

namespace Verif
open CollectNavMessage

variable {C : Crypto} {N : Navmon} {S : Storage}

theorem unwrapOpt_ok {α : Type} {x : Option α} {a : α} : unwrapOpt x = .ok a ↔ x = some a := by
  cases x <;> simp [unwrapOpt]

theorem root_given {a : Args} {pk : Option (PublicKey C)} {o : Osnma C} (hsome : a.merkleRoot ≠ none ∨ pk ≠ none) :
    constructOsnma a pk = .ok (.ok o) ↔ ∃ root0, RootGiven a root0 ∧ o = Osnma.new FullStorage root0 pk a.slowMacOnly := by
  unfold constructOsnma RootGiven
  cases hr : a.merkleRoot with
  | none =>
    rw [hr] at hsome
    cases pk with
    | none => simp at hsome
    | some k =>
      simp only [unwrapOpt, Res.ok_bind, Res.pure_eq, Res.ok.injEq, Except.ok.injEq, exists_eq_left]
      exact eq_comm
  | some text =>
    dsimp only
    cases hd : hexDecode (text.map Char.toNat) with
    | none =>
      simp only [Res.ok.injEq, reduceCtorEq, false_iff]
      rintro ⟨_, ⟨r, _, hr⟩, _⟩
      have : hexDecode (text.map Char.toNat) = some r.val := hexDecode_iff.2 hr
      rw [hd] at this; cases this
    | some l =>
      have hx : HexOf text l := hexDecode_iff.1 hd
      dsimp only
      by_cases hl : l.length = 32
      · rw [dif_pos hl]
        simp only [Res.ok.injEq, Except.ok.injEq]
        constructor
        · rintro rfl; exact ⟨_, ⟨⟨l, hl⟩, rfl, hx⟩, rfl⟩
        · rintro ⟨_, ⟨r, rfl, hr⟩, rfl⟩
          have : hexDecode (text.map Char.toNat) = some r.val := hexDecode_iff.2 hr
          rw [hd] at this
          obtain ⟨rv, hrv⟩ := r
          cases this
          rfl
      · rw [dif_neg hl]
        simp only [Res.ok.injEq, reduceCtorEq, false_iff]
        rintro ⟨_, ⟨r, _, hr⟩, _⟩
        have : hexDecode (text.map Char.toNat) = some r.val := hexDecode_iff.2 hr
        rw [hd] at this
        cases this
        exact hl r.property

/-- **C66.**  `galmon-osnma` starts exactly when the arguments name a Merkle tree root, a public key with its identifier, or both, and not two keys, and
they can be read; and it starts with exactly these, and the Slow MAC setting given.  It never panics. -/
theorem C66_starts_iff (pem : List Char → Option C.P256Key) (a : Args) :
    (∀ o : Osnma C, galmonStart C pem a = .ok (.ok o) ↔
      ∃ root0 pk0, RootGiven a root0 ∧ KeyGiven pem a pk0 ∧ (root0 ≠ none ∨ pk0 ≠ none) ∧ o = Osnma.new FullStorage root0 pk0 a.slowMacOnly) ∧
    ∃ r, galmonStart C pem a = .ok r := by
  have hroot : ∀ root0, RootGiven a root0 → (root0 = none ↔ a.merkleRoot = none) := by
    intro root0 h
    unfold RootGiven at h
    cases hr : a.merkleRoot with
    | none => rw [hr] at h; simp [h]
    | some t => rw [hr] at h; obtain ⟨r, rfl, _⟩ := h; simp
  have hret : ∀ pk : Option (PublicKey C), a.merkleRoot ≠ none ∨ pk ≠ none → ∃ r, constructOsnma a pk = .ok r := by
    intro pk h
    unfold constructOsnma
    cases hr : a.merkleRoot with
    | some text =>
      dsimp only
      cases hexDecode (text.map Char.toNat) with
      | none => exact ⟨_, rfl⟩
      | some l => dsimp only; split <;> exact ⟨_, rfl⟩
    | none =>
      cases pk with
      | none => rw [hr] at h; simp at h
      | some k => exact ⟨_, rfl⟩
  -- the final step, given the key
  have fin : ∀ (pk : Option (PublicKey C)), a.merkleRoot ≠ none ∨ pk ≠ none → (∀ pk', KeyGiven pem a pk' ↔ pk' = pk) →
      (∀ o : Osnma C, constructOsnma a pk = .ok (.ok o) ↔
        ∃ root0 pk0, RootGiven a root0 ∧ KeyGiven pem a pk0 ∧ (root0 ≠ none ∨ pk0 ≠ none) ∧ o = Osnma.new FullStorage root0 pk0 a.slowMacOnly) ∧
      ∃ r, constructOsnma a pk = .ok r := by
    intro pk h hk
    refine ⟨fun o => ?_, hret pk h⟩
    rw [root_given h]
    constructor
    · rintro ⟨r0, h1, h2⟩
      refine ⟨r0, pk, h1, (hk pk).2 rfl, ?_, h2⟩
      rcases h with h | h
      · exact .inl (fun hh => h ((hroot r0 h1).1 hh))
      · exact .inr h
    · rintro ⟨r0, pk', h1, h2, _, h4⟩
      obtain rfl := (hk pk').1 h2
      exact ⟨r0, h1, h4⟩
  -- failing cases
  have bad : ∀ {e : StartError}, galmonStart C pem a = .ok (.error e) → (∀ pk' : Option (PublicKey C), KeyGiven pem a pk' → pk' = none ∧ a.merkleRoot = none) →
      (∀ o : Osnma C, galmonStart C pem a = .ok (.ok o) ↔
        ∃ root0 pk0, RootGiven a root0 ∧ KeyGiven pem a pk0 ∧ (root0 ≠ none ∨ pk0 ≠ none) ∧ o = Osnma.new FullStorage root0 pk0 a.slowMacOnly) ∧
      ∃ r, galmonStart C pem a = .ok r := by
    intro e h hk
    refine ⟨fun o => ?_, _, h⟩
    rw [h]
    simp only [Res.ok.injEq, reduceCtorEq, false_iff]
    rintro ⟨r0, pk, h1, h2, h3, _⟩
    obtain ⟨h4, h5⟩ := hk pk h2
    rcases h3 with h3 | h3
    · exact h3 ((hroot r0 h1).2 h5)
    · exact h3 h4
  obtain ⟨mr, pk, p5, id, slow⟩ := a
  cases pk with
  | none =>
    cases p5 with
    | none =>
      cases id with
      | none =>
        cases mr with
        | none => exact bad (e := .nothingGiven) rfl (fun pk' h => ⟨h, rfl⟩)
        | some t => exact fin none (.inl (by simp)) (fun pk' => Iff.rfl)
      | some i =>
        cases mr with
        | none => exact bad (e := .nothingGiven) rfl (fun pk' h => h.elim)
        | some t => exact bad (e := .keyMissing) rfl (fun pk' h => h.elim)
    | some text =>
      cases id with
      | none => exact bad (e := .idMissing) (by cases mr <;> rfl) (fun pk' h => h.elim)
      | some i =>
        cases hd : hexDecode (text.map Char.toNat) with
        | none =>
          refine bad (e := .badKey) (by cases mr <;> simp [galmonStart, choosePubkey, unwrapOpt, loadPubkeyP521, hd]) (fun pk' h => ?_)
          obtain ⟨b, k, h1, _, _⟩ := h
          have : hexDecode (text.map Char.toNat) = some b := hexDecode_iff.2 h1
          rw [hd] at this; cases this
        | some b =>
          cases hk : C.p521FromSec1 b with
          | none =>
            refine bad (e := .badKey) (by cases mr <;> simp [galmonStart, choosePubkey, unwrapOpt, loadPubkeyP521, hd, hk]) (fun pk' h => ?_)
            obtain ⟨b', k, h1, h2, _⟩ := h
            have : hexDecode (text.map Char.toNat) = some b' := hexDecode_iff.2 h1
            rw [hd] at this; cases this
            rw [hk] at h2; cases h2
          | some k =>
            have := fin (some ⟨.P521 k, i.val⟩) (.inr (by simp)) (fun pk' => by
              constructor
              · rintro ⟨b', k', h1, h2, rfl⟩
                have : hexDecode (text.map Char.toNat) = some b' := hexDecode_iff.2 h1
                rw [hd] at this; cases this
                rw [hk] at h2; cases h2
                rfl
              · rintro rfl
                exact ⟨b, k, hexDecode_iff.1 hd, hk, rfl⟩)
            have he : galmonStart C pem ⟨mr, none, some text, some i, slow⟩ = constructOsnma ⟨mr, none, some text, some i, slow⟩ (some ⟨.P521 k, i.val⟩) := by
              cases mr <;> simp [galmonStart, choosePubkey, unwrapOpt, loadPubkeyP521, hd, hk]
            rw [he]
            exact this
  | some path =>
    cases p5 with
    | some text => exact bad (e := .bothKeys) (by cases mr <;> rfl) (fun pk' h => h.elim)
    | none =>
      cases id with
      | none => exact bad (e := .idMissing) (by cases mr <;> rfl) (fun pk' h => h.elim)
      | some i =>
        cases hk : pem path with
        | none =>
          refine bad (e := .badKey) (by cases mr <;> simp [galmonStart, choosePubkey, unwrapOpt, loadPubkey, hk]) (fun pk' h => ?_)
          obtain ⟨k, h1, _⟩ := h
          rw [hk] at h1; cases h1
        | some k =>
          have := fin (some ⟨.P256 k, i.val⟩) (.inr (by simp)) (fun pk' => by
            constructor
            · rintro ⟨k', h1, rfl⟩
              rw [hk] at h1; cases h1
              rfl
            · rintro rfl
              exact ⟨k, hk, rfl⟩)
          have he : galmonStart C pem ⟨mr, some path, none, some i, slow⟩ = constructOsnma ⟨mr, some path, none, some i, slow⟩ (some ⟨.P256 k, i.val⟩) := by
            cases mr <;> simp [galmonStart, choosePubkey, unwrapOpt, loadPubkey, hk]
          rw [he]
          exact this

/-- The state with which `galmon-osnma` starts, as one made by the constructors of the library. -/
theorem start_fresh {root0 : Option MerkleTreeNode} {pk0 : Option (PublicKey C)} {slow : Bool} (h : root0 ≠ none ∨ pk0 ≠ none) :
    (Osnma.new FullStorage root0 pk0 slow : Osnma C).Fresh FullStorage := by
  cases root0 with
  | some r => exact .inl ⟨r, pk0, slow, rfl⟩
  | none =>
    cases pk0 with
    | some k => exact .inr ⟨k, slow, rfl⟩
    | none => simp at h

/-- **C66.**  Whatever `galmon-osnma` logs as authenticated is authentic (in the sense of C31 and C32) for the Merkle tree root and the public key that the
user gave in the arguments, under the Slow MAC setting given: whatever the arguments, the files and the packets. -/
theorem C66_logged_is_authentic {checks : Bool} {pem : List Char → Option C.P256Key} {a : Args} {input : Source} {g : GalmonOsnma C}
    {e : Option IoError} (h : galmonProgram N checks pem a input = .ok (.ok (g, e))) :
    ∃ root0 pk0, RootGiven a root0 ∧ KeyGiven pem a pk0 ∧ (root0 ≠ none ∨ pk0 ≠ none) ∧
      ∀ r ∈ g.reports, ∃ pre log us, pre <+: g.calls ∧
        Authentic root0 pk0 a.slowMacOnly pre log r.kind r.svn r.data.data r.data.authbits us := by
  unfold galmonProgram at h
  obtain ⟨s, hs, h⟩ := Res.bind_eq_ok.1 h
  cases s with
  | error e => cases h
  | ok o =>
    dsimp only at h
    obtain ⟨⟨g', e'⟩, hm, h⟩ := Res.bind_eq_ok.1 h
    cases h
    obtain ⟨root0, pk0, h1, h2, h3, rfl⟩ := ((C66_starts_iff pem a).1 o).1 hs
    refine ⟨root0, pk0, h1, h2, h3, fun r hr => ?_⟩
    have hS : FullStorage.Consistent := ⟨by decide, by decide, by decide, by decide, by decide⟩
    obtain ⟨pre, o, hp, hrun, hg⟩ := C56_logged_was_returned hS (start_fresh h3) hm r hr
    obtain ⟨log, hl⟩ := Logs.of_run hrun
    obtain ⟨us, hu⟩ := get_authentic hS (start_fresh h3) hl _ hg
    exact ⟨pre, log, us, hp, hu⟩

theorem Authentic.uses {root0 : Option MerkleTreeNode} {pk0 : Option (PublicKey C)} {slow : Bool} {hist : List Call} {log : List (KeyEvent C)}
    {kd : NavKind} {svn : Svn} {bits : List Bool} {n : Nat} {us : List TagUse} (h : Authentic root0 pk0 slow hist log kd svn bits n us) : us ≠ [] := by
  rintro rfl
  have h1 := h.enough
  have h2 := h.total
  simp at h2
  omega

/-- **C66.**  A public key is of use only with an identifier below 16 (the DSM-KROOT names it in four bits): with no Merkle tree root, a larger one is accepted
at start-up, but nothing is ever authenticated with it. -/
theorem C66_large_identifier (hS : S.Consistent) (pk : PublicKey C) (hid : 16 ≤ pk.pkid) {slow : Bool} {hist : List Call} {o : Osnma C}
    (h : run S (Osnma.fromPubkey S pk slow) hist = .ok o) (kd : NavKind) (svn : Svn) (d : NavMessageData) :
    o.get S kd svn ≠ .ok (some d) := by
  intro hd
  obtain ⟨log, hl⟩ := Logs.of_run h
  obtain ⟨us, hu⟩ := get_authentic (root0 := none) (pk0 := some pk) hS (.inr ⟨pk, slow, rfl⟩) hl _ hd
  obtain ⟨u, rest, rfl⟩ := List.exists_cons_of_ne_nil hu.uses
  obtain ⟨hh, data, pk', kr, n, f, m, ht, hp, _⟩ := (hu.prove u (by simp)).key
  rcases ht with ht | ⟨r, _, hr, _⟩
  · cases ht
    have : bitField data 4 4 < 2 ^ 4 := bitField_lt data 4 4
    omega
  · cases hr

/-! ## Firmware -/

theorem trim_iff {s t : List Char} : trimText (points s) = points t ↔ TrimmedTo s t := by
  have e1 : ∀ l : List Char, (points l).dropWhile isWhitespace = points (l.dropWhile fun c => isWhitespace c.toNat) := by
    intro l; unfold points; rw [List.dropWhile_map]; rfl
  have e2 : ∀ l : List Char, (points l).reverse = points l.reverse := by
    intro l; unfold points; rw [List.map_reverse]
  have hd : ∀ (l : List Char), ∃ a, l = a ++ l.dropWhile (fun c => isWhitespace c.toNat) ∧ (∀ c ∈ a, White c) ∧
      ∀ c, (l.dropWhile fun c => isWhitespace c.toNat).head? = some c → ¬ White c := by
    intro l
    refine ⟨l.takeWhile fun c => isWhitespace c.toNat, List.takeWhile_append_dropWhile.symm, ?_, ?_⟩
    · intro c hc
      have := List.all_takeWhile (l := l) (p := fun c => isWhitespace c.toNat)
      exact (white_iff c).1 (List.all_eq_true.1 this c hc)
    · intro c hc hw
      have := List.head?_dropWhile_not (p := fun c : Char => isWhitespace c.toNat) (l := l)
      rw [hc] at this
      simp [(white_iff c).2 hw] at this
  have ex : ∀ s : List Char, ∃ t, trimText (points s) = points t ∧ TrimmedTo s t := by
    intro s
    refine ⟨((s.dropWhile fun c => isWhitespace c.toNat).reverse.dropWhile fun c => isWhitespace c.toNat).reverse, ?_, ?_⟩
    · unfold trimText; rw [e1, e2, e1, e2]
    · obtain ⟨a, h1, h2, h3⟩ := hd s
      generalize s.dropWhile (fun c => isWhitespace c.toNat) = m at *
      obtain ⟨b, k1, k2, k3⟩ := hd m.reverse
      generalize m.reverse.dropWhile (fun c => isWhitespace c.toNat) = t at *
      have hm : m = t.reverse ++ b.reverse := by rw [← List.reverse_append, ← k1, List.reverse_reverse]
      refine ⟨a, b.reverse, by rw [h1, hm, List.append_assoc], h2, fun c hc => k2 c (by simpa using hc), fun c hc => ?_, fun c hc => ?_⟩
      · apply h3 c
        rw [hm]
        cases hx : t.reverse with
        | nil => rw [hx] at hc; cases hc
        | cons y ys => rw [hx] at hc; exact hc
      · apply k3 c
        rw [List.getLast?_reverse] at hc
        exact hc
  have uniq : ∀ {s t t' : List Char}, TrimmedTo s t → TrimmedTo s t' → t = t' := by
    have key : ∀ {a t b a' t' b' : List Char}, a ++ (t ++ b) = a' ++ (t' ++ b') → (∀ c ∈ a, White c) → (∀ c ∈ a', White c) →
        (∀ c, t.head? = some c → ¬ White c) → (∀ c, t'.head? = some c → ¬ White c) → t ≠ [] → t' ≠ [] → t ++ b = t' ++ b' := by
      intro a
      induction a with
      | nil =>
        intro t b a' t' b' h _ ha' ht _ hne _
        cases a' with
        | nil => exact h
        | cons x xs =>
          exfalso
          obtain ⟨y, ys, rfl⟩ := List.exists_cons_of_ne_nil hne
          simp only [List.nil_append, List.cons_append, List.cons.injEq] at h
          exact ht y rfl (h.1 ▸ ha' x (by simp))
      | cons z zs ih =>
        intro t b a' t' b' h ha ha' ht ht' hne hne'
        cases a' with
        | nil =>
          exfalso
          obtain ⟨y, ys, rfl⟩ := List.exists_cons_of_ne_nil hne'
          simp only [List.nil_append, List.cons_append, List.cons.injEq] at h
          exact ht' y rfl (h.1 ▸ ha z (by simp))
        | cons x xs =>
          simp only [List.cons_append, List.cons.injEq] at h
          exact ih h.2 (fun c hc => ha c (by simp [hc])) (fun c hc => ha' c (by simp [hc])) ht ht' hne hne'
    have white_all : ∀ {s : List Char} {t : List Char}, TrimmedTo s t → (t = [] ↔ ∀ c ∈ s, White c) := by
      rintro s t ⟨a, b, rfl, ha, hb, hh, _⟩
      constructor
      · rintro rfl c hc
        simp only [List.append_nil, List.mem_append] at hc
        rcases hc with hc | hc
        · exact ha c hc
        · exact hb c hc
      · intro h
        cases t with
        | nil => rfl
        | cons x xs => exact absurd (h x (by simp)) (hh x rfl)
    intro s t t' h h'
    by_cases he : t = []
    · rw [he, (white_all h').2 ((white_all h).1 he)]
    · have he' : t' ≠ [] := fun hx => he ((white_all h).2 ((white_all h').1 hx))
      obtain ⟨a, b, e, ha, hb, hh, hl⟩ := h
      obtain ⟨a', b', e', ha', hb', hh', hl'⟩ := h'
      have h1 : t ++ b = t' ++ b' := key (by rw [← List.append_assoc, ← e, e', List.append_assoc]) ha ha' hh hh' he he'
      have h2 : b.reverse ++ (t.reverse ++ []) = b'.reverse ++ (t'.reverse ++ []) := by
        simp only [List.append_nil]
        rw [← List.reverse_append, ← List.reverse_append, h1]
      have h3 := key h2 (fun c hc => hb c (by simpa using hc)) (fun c hc => hb' c (by simpa using hc))
        (fun c hc => hl c (by rwa [List.head?_reverse] at hc)) (fun c hc => hl' c (by rwa [List.head?_reverse] at hc)) (by simpa using he) (by simpa using he')
      simpa using h3
  constructor
  · intro h
    obtain ⟨t', h1, h2⟩ := ex s
    rw [h1] at h
    rwa [← points_inj h]
  · intro h
    obtain ⟨t', h1, h2⟩ := ex s
    rw [h1, uniq h h2]

/-- **C66.**  The firmware builds exactly when `pubkey.pem` is a key, `pubkey_id.txt` a number below 256 and `merkle_tree_root.txt` 32 bytes in hexadecimal, white
space around these aside; and it is these that are built in. -/
theorem C66_firmware_build (sec1 : C.P256Key → List Byte) (pem : Option C.P256Key) (idText rootText : List Char) (k : FirmwareConsts) :
    firmwareBuild sec1 pem idText rootText = .ok k ↔
      ∃ key it rt, pem = some key ∧ TrimmedTo idText it ∧ Number 256 it k.pubkeyId ∧ TrimmedTo rootText rt ∧ HexOf rt k.root.val ∧ k.pubkey = sec1 key := by
  unfold firmwareBuild
  change (do
    let key ← unwrapOpt pem
    let id ← unwrapOpt (parseUint (2 ^ 8) (trimText (points idText)))
    let l ← unwrapOpt (hexDecode (trimText (points rootText)))
    if h : l.length = 32 then pure (⟨sec1 key, id, ⟨l, h⟩⟩ : FirmwareConsts) else Res.panic "try_into().unwrap()") = .ok k ↔ _
  simp only [Res.bind_eq_ok, unwrapOpt_ok]
  have hpt : ∀ s : List Char, ∃ t, trimText (points s) = points t := by
    intro s
    refine ⟨((s.dropWhile fun c => isWhitespace c.toNat).reverse.dropWhile fun c => isWhitespace c.toNat).reverse, ?_⟩
    unfold trimText points
    rw [List.dropWhile_map, ← List.map_reverse, List.dropWhile_map, ← List.map_reverse]
    rfl
  constructor
  · rintro ⟨key, hk, id, hi, l, hl, h⟩
    obtain ⟨it, e1⟩ := hpt idText
    obtain ⟨rt, e2⟩ := hpt rootText
    rw [e1] at hi
    rw [e2] at hl
    by_cases h32 : l.length = 32
    · rw [dif_pos h32] at h
      cases h
      exact ⟨key, it, rt, hk, trim_iff.1 e1, (parseUint_iff (by decide)).1 hi, trim_iff.1 e2, hexDecode_iff.1 hl, rfl⟩
    · rw [dif_neg h32] at h; cases h
  · rintro ⟨key, it, rt, hk, h1, h2, h3, h4, h5⟩
    refine ⟨key, hk, k.pubkeyId, ?_, k.root.val, ?_, ?_⟩
    · rw [trim_iff.2 h1]; exact (parseUint_iff (by decide)).2 h2
    · rw [trim_iff.2 h3]; exact hexDecode_iff.2 h4
    · rw [dif_pos k.root.property, Res.pure_eq, ← h5]

/-- **C66.**  The firmware starts with the built-in Merkle tree root and the built-in public key, if decoding undoes encoding for keys. -/
theorem C66_firmware_start {sec1 : C.P256Key → List Byte} {key : C.P256Key} (hsec : C.p256FromSec1 (sec1 key) = some key)
    {idText rootText : List Char} {k : FirmwareConsts} (h : firmwareBuild sec1 (some key) idText rootText = .ok k) :
    firmwareStart C k = .ok (Firmware.new (Osnma.fromMerkleTree SmallStorage k.root (some ⟨.P256 key, k.pubkeyId⟩) false)) := by
  obtain ⟨key', _, _, hk, _, _, _, _, h5⟩ := (C66_firmware_build ..).1 h
  cases hk
  unfold firmwareStart
  rw [h5, hsec]
  rfl

/-- The firmware stays in step with the black box, and ends each turn with the two status lines. -/
structure Firmware.InStep (S : Storage) (o0 : Osnma C) (f : Firmware C) : Prop where
  buffer : f.rxBuffer.length = 256
  state : run S o0 f.calls = .ok f.osnma

theorem Firmware.InStep.spin {o0 : Osnma C} {f f' : Firmware C} (hf : f.InStep S o0) {input rest : List Byte}
    (h : f.spin S input = .ok (some (f', rest))) :
    f'.InStep S o0 ∧ ∃ pre l4 l0, f'.tx = pre ++ l4 ++ l0 ∧ StatusLine S f'.osnma .timing l4 ∧ StatusLine S f'.osnma .ced l0 := by
  constructor
  · obtain ⟨_, _, _, _, hb, hc⟩ := C64_no_misreading f hf.buffer h
    rcases hc with ⟨c, _, h1, h2⟩ | ⟨_, h1, h2⟩
    · exact ⟨hb, by rw [h2]; exact run_snoc_ok.2 ⟨_, hf.state, h1⟩⟩
    · exact ⟨hb, by rw [h2, h1]; exact hf.state⟩
  · unfold Firmware.spin at h
    cases hx : rxLineFrom (f.write (ascii "READY\r\n")).rxBuffer 0 input with
    | none => simp only [hx] at h; cases h
    | some x =>
      obtain ⟨len, buffer, r⟩ := x
      simp only [hx, Res.bind_eq_ok, Res.pure_eq, Res.ok.injEq, Option.some.injEq, Prod.mk.injEq] at h
      obtain ⟨f1, h1, f2, h2, rfl, _⟩ := h
      obtain ⟨_, l4, l0, s4, s0, rfl⟩ := printAuthStatus_ok h2
      exact ⟨f1.tx, l4, l0, by simp [Firmware.write], s4, s0⟩

/-- The firmware after `n` turns with any bytes. -/
theorem Firmware.InStep.spins {o0 : Osnma C} : ∀ (n : Nat) {f f' : Firmware C}, f.InStep S o0 → ∀ {input rest : List Byte},
    f.spins S n input = .ok (some (f', rest)) →
    f'.InStep S o0 ∧ (n ≠ 0 → ∃ pre l4 l0, f'.tx = pre ++ l4 ++ l0 ∧ StatusLine S f'.osnma .timing l4 ∧ StatusLine S f'.osnma .ced l0) := by
  intro n
  induction n with
  | zero =>
    intro f f' hf input rest h
    simp only [Firmware.spins, Res.ok.injEq, Option.some.injEq, Prod.mk.injEq] at h
    obtain ⟨rfl, _⟩ := h
    exact ⟨hf, fun h => absurd rfl h⟩
  | succ n ih =>
    intro f f' hf input rest h
    simp only [Firmware.spins, Res.bind_eq_ok] at h
    obtain ⟨r, h1, h2⟩ := h
    cases r with
    | none => cases h2
    | some x =>
      obtain ⟨f1, r1⟩ := x
      obtain ⟨k1, k2⟩ := hf.spin h1
      obtain ⟨k3, k4⟩ := ih k1 h2
      refine ⟨k3, fun _ => ?_⟩
      by_cases hn : n = 0
      · subst hn
        simp only [Firmware.spins, Res.ok.injEq, Option.some.injEq, Prod.mk.injEq] at h2
        obtain ⟨rfl, _⟩ := h2
        exact k2
      · exact k4 hn

/-- **C66.**  Whatever bytes arrive at the firmware: after each turn its last two lines are the status lines of the two kinds of data, and each satellite listed
there has data that is authentic for the key and the Merkle tree root that were in the files when the firmware was built. -/
theorem C66_firmware_authentic {sec1 : C.P256Key → List Byte} {key : C.P256Key} (hsec : C.p256FromSec1 (sec1 key) = some key)
    {idText rootText : List Char} {k : FirmwareConsts} (hb : firmwareBuild sec1 (some key) idText rootText = .ok k) {f0 f : Firmware C}
    (h0 : firmwareStart C k = .ok f0) {n : Nat} (hn : n ≠ 0) {input rest : List Byte} (h : f0.spins SmallStorage n input = .ok (some (f, rest))) :
    ∃ pre l4 l0, f.tx = pre ++ l4 ++ l0 ∧ StatusLine SmallStorage f.osnma .timing l4 ∧ StatusLine SmallStorage f.osnma .ced l0 ∧
      ∀ kd svn d, f.osnma.get SmallStorage kd svn = .ok (some d) →
        ∃ log us, Authentic (some k.root) (some ⟨.P256 key, k.pubkeyId⟩ : Option (PublicKey C)) false f.calls log kd svn d.data d.authbits us := by
  have hS : SmallStorage.Consistent := ⟨by decide, by decide, by decide, by decide, by decide⟩
  have e := h0
  rw [C66_firmware_start hsec hb] at e
  obtain rfl := Res.ok.inj e
  have hi : (Firmware.new (Osnma.fromMerkleTree SmallStorage k.root (some ⟨.P256 key, k.pubkeyId⟩) false)).InStep SmallStorage
      (Osnma.fromMerkleTree SmallStorage k.root (some ⟨.P256 key, k.pubkeyId⟩) false : Osnma C) :=
    ⟨List.length_replicate, rfl⟩
  obtain ⟨h1, h2⟩ := hi.spins n h
  obtain ⟨pre, l4, l0, e1, s4, s0⟩ := h2 hn
  refine ⟨pre, l4, l0, e1, s4, s0, fun kd svn d hd => ?_⟩
  obtain ⟨log, hl⟩ := Logs.of_run h1.state
  obtain ⟨us, hu⟩ := get_authentic (root0 := some k.root) hS (.inl ⟨k.root, _, false, rfl⟩) hl kd hd
  exact ⟨log, us, hu⟩

/-! ## Concrete cases -/

section
open Sim

/-- A Merkle tree root in hexadecimal. -/
def exampleRoot : List Char := "0e63f552c8021709043c239032effe941bf22c8389032f5f2701e0fbc80148b8".toList

/-- Arguments with a root and a key. -/
def exampleArgs : Args := ⟨some exampleRoot, some "pubkey.pem".toList, none, some 1, false⟩

/-- The file `pubkey.pem` holds the public key 1 of the simulation. -/
def examplePem (path : List Char) : Option Sim.toy.P256Key := if path = "pubkey.pem".toList then some (pubBytes 1) else none

/-- The arguments are accepted, so `C66_starts_iff` gives the root and the key. -/
example : ∃ o : Osnma Sim.toy, galmonStart Sim.toy examplePem exampleArgs = .ok (.ok o) := by
  refine ⟨Osnma.fromMerkleTree FullStorage (fix 32 ((hexDecode (points exampleRoot)).getD [])) (some ⟨.P256 (pubBytes 1), 1⟩) false, ?_⟩
  have h1 : hexDecode (exampleRoot.map Char.toNat) = some ((hexDecode (points exampleRoot)).getD []) := by decide +kernel
  have h2 : ((hexDecode (points exampleRoot)).getD []).length = 32 := by decide +kernel
  have h3 : examplePem "pubkey.pem".toList = some (pubBytes 1) := if_pos rfl
  simp only [galmonStart, exampleArgs, choosePubkey, loadPubkey, constructOsnma, unwrapOpt, h1, h3, Option.isNone, Option.isSome, Bool.false_and,
    Bool.and_false, Bool.false_eq_true, if_false, Res.ok_bind, dif_pos h2, fix]
  rfl

/-- Without identifier, or with a root that is one digit short, the program ends with an error. -/
example : galmonStart Sim.toy examplePem { exampleArgs with pkid := none } = .ok (.error .idMissing) ∧
    (galmonStart Sim.toy examplePem { exampleArgs with merkleRoot := some exampleRoot.tail } matches .ok (.error .badRoot)) = true := by
  constructor
  · rfl
  · decide +kernel

/-- The texts of the files of the firmware, with white space around them. -/
example : ∃ k, firmwareBuild (C := Sim.toy) id (some (pubBytes 1)) " 1\n".toList (exampleRoot ++ "\r\n".toList) = .ok k ∧ k.pubkeyId = 1 ∧
    Sim.toy.p256FromSec1 (id (pubBytes 1)) = some (pubBytes 1) := by
  have h : ∃ k, firmwareBuild (C := Sim.toy) id (some (pubBytes 1)) " 1\n".toList (exampleRoot ++ "\r\n".toList) = .ok k := by
    cases h : firmwareBuild (C := Sim.toy) id (some (pubBytes 1)) " 1\n".toList (exampleRoot ++ "\r\n".toList) with
    | ok k => exact ⟨k, rfl⟩
    | panic w =>
      have : (firmwareBuild (C := Sim.toy) id (some (pubBytes 1)) " 1\n".toList (exampleRoot ++ "\r\n".toList) matches .ok _) = true := by decide +kernel
      rw [h] at this
      cases this
  obtain ⟨k, hk⟩ := h
  refine ⟨k, hk, ?_, by
    show (if (pubBytes 1).length = 33 ∧ (pubBytes 1).any (fun x => x != 0#8) = true then some (pubBytes 1) else none) = some (pubBytes 1)
    exact if_pos (by decide +kernel)⟩
  obtain ⟨_, it, _, _, h1, h2, _⟩ := (C66_firmware_build ..).1 hk
  have h3 := (parseUint_iff (by decide)).2 h2
  rw [← trim_iff.2 h1] at h3
  have h4 : parseUint 256 (trimText (points " 1\n".toList)) = some 1 := by decide +kernel
  rw [h4] at h3
  exact (Option.some.inj h3).symm

/-- The firmware of these files takes a turn on a line with navigation data. -/
example : (do
    let k ← firmwareBuild (C := Sim.toy) id (some (pubBytes 1)) " 1\n".toList (exampleRoot ++ "\r\n".toList)
    let f ← firmwareStart Sim.toy k
    let r ← f.spins SmallStorage 1 (ascii "7 1251 345601 1 00ffabcdef\r\n")
    pure (r.map fun (x : Firmware Sim.toy × List Byte) => (x.1.tx, x.1.calls.length))) =
    .ok (some (ascii "READY\r\nE07 WN 1251 TOW 345601 E1B OSNMA\r\nAUTH ADKD=4 NONE\r\nAUTH ADKD=0 NONE\r\n", 1)) := by
  decide +kernel

end

end Verif
