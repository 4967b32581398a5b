import Verif.Spec.Validated
import Verif.Tests.ApiKeys
import Verif.Lemmas.Merkle
import Verif.Lemmas.Kroot
import Verif.Props.Tesla
import Verif.Props.Mack
import Verif.Lemmas.OsnmaSteps
import Verif.Spec.Authentic

/-! # C71: validated means validated -/

namespace Verif
variable {C : Crypto} {trusted : PublicKey C → Prop} {roots : MerkleTreeNode → Prop}

/-- **C71.** Every value of type `PublicKey<Validated>` was trusted by the program itself, or is proved
against a root trusted by the program. -/
theorem C71_public_key {pk : PublicKey C} (h : ApiPk C trusted roots pk) : PkAnchored trusted roots pk := by
  cases h with
  | forced h => exact .inl h
  | proved hr h => exact .inr ⟨_, _, hr, Merkle.validatePkr_eq_ok.1 h⟩

/-- **C71.** And every such key can be had. -/
theorem C71_public_key_iff {pk : PublicKey C} : ApiPk C trusted roots pk ↔ PkAnchored trusted roots pk := by
  constructor
  · exact C71_public_key
  · rintro (h | ⟨root, data, hr, h⟩)
    · exact .forced h
    · exact .proved (d := ⟨data⟩) hr (Merkle.validatePkr_eq_ok.2 h)

/-- Every key of a program, validated or not, belongs to the start of a subframe. -/
theorem ApiKey.aligned {pks : PublicKey C → Prop} {v : Bool} {k : Key} (h : ApiKey C pks v k) : k.gst.Aligned := by
  induction h with
  | fromBitslice h =>
    unfold Key.fromBitslice Key.checkGst at h
    obtain ⟨_, h1, h2⟩ := Res.bind_eq_ok.1 h
    obtain ⟨_, _, h3⟩ := Res.bind_eq_ok.1 h2
    cases h3
    exact (Gst.isSubframe_iff _).1 (Res.assert_eq_ok.1 h1)
  | fromSlice h =>
    unfold Key.fromSlice Key.checkGst at h
    obtain ⟨_, h1, h2⟩ := Res.bind_eq_ok.1 h
    obtain ⟨_, _, h3⟩ := Res.bind_eq_ok.1 h2
    cases h3
    exact (Gst.isSubframe_iff _).1 (Res.assert_eq_ok.1 h1)
  | fromDsmKroot _ hk =>
    obtain ⟨_, _, _, ha, _⟩ := Key.fromDsmKroot_eq_ok.1 hk
    have := ha.time
    unfold Gst.Aligned
    omega
  | oneWayFunction _ h ih =>
    have := (Key.oneWayFunction_eq_ok.1 h).1
    unfold Gst.Aligned at *
    omega
  | derive _ h ih =>
    have := (Key.derive_gst h).2
    unfold Gst.Aligned at *
    omega
  | validateKey _ _ h ih ih' =>
    have := (C23_accepts_iff _ _ _ ih ih').1 h
    rw [this.1]; exact ih'

theorem Derives.split {c : Chain} {m n : Nat} {x y : Gst × List Byte} (h : Derives C c (m + n) x y) :
    ∃ z, Derives C c m x z ∧ Derives C c n z y := by
  induction m generalizing x with
  | zero => exact ⟨x, .zero x, by simpa using h⟩
  | succ m ih =>
    rw [Nat.add_right_comm] at h
    cases h with
    | succ _ g prev k _ hp h =>
      obtain ⟨z, h1, h2⟩ := ih h
      exact ⟨z, .succ _ _ _ _ _ hp h1, h2⟩

/-- Two keys derived from one key: the later one leads to the earlier one. -/
theorem Derives.confluent {c : Chain} {m n : Nat} {x y z : Gst × List Byte} (h : Derives C c m x y) (h' : Derives C c n x z) :
    (m ≤ n ∧ Derives C c (n - m) y z) ∨ (n ≤ m ∧ Derives C c (m - n) z y) := by
  rcases Nat.le_total m n with hle | hle
  · left
    refine ⟨hle, ?_⟩
    rw [show n = m + (n - m) by omega] at h'
    obtain ⟨w, h1, h2⟩ := h'.split
    rw [h.det h1]; exact h2
  · right
    refine ⟨hle, ?_⟩
    rw [show m = n + (m - n) by omega] at h
    obtain ⟨w, h1, h2⟩ := h.split
    rw [h'.det h1]; exact h2

theorem Meets.refl (k : Key) : Meets C k k := ⟨rfl, 0, 0, _, .zero _, .zero _⟩

theorem Meets.back {kr k k' : Key} {n : Nat} (h : Meets C kr k) (hc : k'.chain = k.chain)
    (hd : Derives C k.chain n (k.gst, k.bytes) (k'.gst, k'.bytes)) : Meets C kr k' := by
  obtain ⟨h1, a, b, y, h2, h3⟩ := h
  refine ⟨h1.trans hc.symm, ?_⟩
  rw [hc]
  rcases hd.confluent h2 with ⟨_, h4⟩ | ⟨_, h4⟩
  · exact ⟨_, b, y, h4, h3⟩
  · exact ⟨0, _, _, .zero _, h3.trans h4⟩

theorem Meets.forward {kr k k' : Key} {n : Nat} (h : Meets C kr k) (hc : k.chain = k'.chain)
    (hd : Derives C k.chain n (k'.gst, k'.bytes) (k.gst, k.bytes)) : Meets C kr k' := by
  obtain ⟨h1, a, b, y, h2, h3⟩ := h
  refine ⟨h1.trans hc, ?_⟩
  rw [← hc]
  exact ⟨_, b, y, hd.trans h2, h3⟩

/-- **C71.** Every value of type `Key<Validated>`, obtained by whatever sequence of calls, is for the start of a
subframe and traces back to a root key that is signed by an anchored public key: same chain parameters, and
the one-way function leads from both to a common key. -/
theorem C71_key_traced {k : Key} (h : ApiKey C (ApiPk C trusted roots) true k) :
    k.gst.tow % 30 = 0 ∧ ∃ kr : Key, RootAnchored trusted roots kr ∧ Meets C kr k := by
  refine ⟨(Gst.aligned_iff _).1 h.aligned, ?_⟩
  suffices ∀ v k, ApiKey C (ApiPk C trusted roots) v k → v = true → ∃ kr : Key, RootAnchored trusted roots kr ∧ Meets C kr k from
    this true k h rfl
  intro v k h
  induction h with
  | fromBitslice _ => intro h; cases h
  | fromSlice _ => intro h; cases h
  | fromDsmKroot hpk hk =>
    intro _
    obtain ⟨_, _, ⟨f, n, hs⟩, ha, _⟩ := Key.fromDsmKroot_eq_ok.1 hk
    exact ⟨_, ⟨_, _, _, f, n, C71_public_key hpk, hs, ha⟩, .refl _⟩
  | @oneWayFunction v k k' hk h ih =>
    intro hv
    obtain ⟨kr, h1, h2⟩ := ih hv
    have hd : Key.derive C k 1 = .ok k' := by rw [Key.derive, h]; rfl
    exact ⟨kr, h1, h2.back (Key.derive_gst hd).1 (Key.derive_derives hd)⟩
  | derive hk h ih =>
    intro hv
    obtain ⟨kr, h1, h2⟩ := ih hv
    exact ⟨kr, h1, h2.back (Key.derive_gst h).1 (Key.derive_derives h)⟩
  | validateKey hk ho h ih _ =>
    intro _
    obtain ⟨kr, h1, h2⟩ := ih rfl
    obtain ⟨rfl, hc, n, _, _, _, hd⟩ := (C23_accepts_iff _ _ _ hk.aligned ho.aligned).1 h
    exact ⟨kr, h1, h2.forward hc hd⟩

/-- Keys that meet are on one chain, or a second preimage of the one-way function is exhibited. -/
theorem Meets.onChain {kr k : Key} (h : Meets C kr k) : OnChain C kr k ∨ ChainForged C kr k := by
  obtain ⟨hc, a, b, y, h1, h2⟩ := h
  have t1 := h1.time
  have t2 := h2.time
  rcases Nat.le_total b a with hle | hle
  · rw [show a = (a - b) + b by omega] at h1
    obtain ⟨⟨g, z⟩, h3, h4⟩ := h1.split
    have hg : g = kr.gst := by
      have := h3.time
      apply Gst.abs_inj
      dsimp only at *
      omega
    subst hg
    by_cases he : z = kr.bytes
    · subst he
      exact .inl ⟨hc, _, .inl h3⟩
    · refine .inr ⟨b, kr.gst, z, kr.bytes, ⟨_, h3⟩, ⟨0, .zero _⟩, h4.collision h2 ?_ he⟩
      have := h3.length k.bytes_length
      dsimp only at this
      rw [this, kr.bytes_length, hc]
  · rw [show b = (b - a) + a by omega] at h2
    obtain ⟨⟨g, z⟩, h3, h4⟩ := h2.split
    have hg : g = k.gst := by
      have := h3.time
      apply Gst.abs_inj
      dsimp only at *
      omega
    subst hg
    by_cases he : k.bytes = z
    · subst he
      exact .inl ⟨hc, _, .inr h3⟩
    · refine .inr ⟨a, k.gst, k.bytes, z, ⟨0, .zero _⟩, ⟨_, h3⟩, h1.collision h4 ?_ he⟩
      have := h3.length (by rw [kr.bytes_length, hc])
      dsimp only at this
      rw [this, k.bytes_length]

/-- **C71.** So a validated key is on the chain of a root key that is signed by an anchored public key, unless
a second preimage of the one-way function of the chain is exhibited. -/
theorem C71_key_on_chain {k : Key} (h : ApiKey C (ApiPk C trusted roots) true k) :
    ∃ kr : Key, RootAnchored trusted roots kr ∧ (OnChain C kr k ∨ ChainForged C kr k) := by
  obtain ⟨_, kr, h1, h2⟩ := C71_key_traced h
  exact ⟨kr, h1, h2.onChain⟩

theorem Key.ext_bytes {a b : Key} (ha : a.data = Key.padData a.bytes) (hb : b.data = Key.padData b.bytes) (h1 : a.bytes = b.bytes)
    (h2 : a.chain = b.chain) (h3 : a.gst = b.gst) : a = b := by
  cases a; cases b
  simp only at *
  subst h2; subst h3
  rw [ha, hb, h1]

theorem padData_bytes (l : List Byte) (c : Chain) (g : Gst) (h : l.length = c.keySizeBytes) :
    (Key.mk (Key.padData l) c g).bytes = l := Key.padData_take h c.keySize_le

/-- **C71.** Conversely, every key on the chain of a root key that is signed by an anchored public key (with a
usable time) can be obtained as a `Key<Validated>`: keys later than the root key, however far, and earlier
ones. -/
theorem C71_key_obtainable {pk : PublicKey C} {h : NmaHeader} {data : List Byte} {f : EcdsaFunction} {n : Nat} {kr k : Key}
    (hpk : PkAnchored trusted roots pk) (hs : SignedKroot C pk.key h data f n)
    (ht : bitField data 48 8 ≤ 167 ∧ ¬ (bitField data 36 12 = 0 ∧ bitField data 48 8 = 0))
    (hkr : AnnouncedKey data kr) (hk : OnChain C kr k)
    (hp : k.data.val = k.bytes ++ List.replicate (32 - k.chain.keySizeBytes) 0#8) :
    ApiKey C (ApiPk C trusted roots) true k := by
  have hpad : ∀ k : Key, k.data.val = k.bytes ++ List.replicate (32 - k.chain.keySizeBytes) 0#8 → k.data = Key.padData k.bytes := by
    intro k hk
    apply Subtype.ext
    rw [hk]
    have := k.bytes_length
    have := k.chain.keySize_le
    simp only [Key.padData, List.take_append, List.take_replicate]
    rw [List.take_of_length_le (by omega), k.bytes_length, Nat.min_eq_left (by omega)]
  replace hp := hpad k hp
  clear hpad
  have hroot : ApiKey C (ApiPk C trusted roots) true ⟨Key.padData kr.bytes, kr.chain, kr.gst⟩ := by
    have hb := padData_bytes kr.bytes kr.chain kr.gst kr.bytes_length
    refine .fromDsmKroot (h := h) (d := ⟨data⟩) (C71_public_key_iff.2 hpk)
      (Key.fromDsmKroot_eq_ok.2 ⟨rfl, ht, ⟨f, n, hs⟩, ?_, ?_⟩)
    · exact ⟨by rw [hb]; exact hkr.bytes, hkr.id, hkr.hf, hkr.mf, hkr.ks, hkr.ts, hkr.maclt, hkr.alpha, hkr.time⟩
    · rw [hb]
  obtain ⟨hc, m, hd | hd⟩ := hk
  · have hal : kr.gst.Aligned := by have := hkr.time; unfold Gst.Aligned; omega
    induction m generalizing k with
    | zero =>
      have := hd.det (.zero _)
      simp only [Prod.mk.injEq] at this
      have e : k = ⟨Key.padData kr.bytes, kr.chain, kr.gst⟩ :=
        Key.ext_bytes hp (by rw [padData_bytes _ _ _ kr.bytes_length])
          (by rw [padData_bytes _ _ _ kr.bytes_length]; exact this.2.symm) hc.symm this.1.symm
      rw [e]; exact hroot
    | succ m ih =>
      have htime := hd.time
      dsimp only at htime
      cases hd with
      | succ _ _ prev _ _ hprev hd =>
        have ho : k.oneWayFunction C = .ok ⟨Key.padData ((chainHash C k.chain (owfMessage k.chain k.bytes prev)).take k.chain.keySizeBytes),
            k.chain, prev⟩ := Key.oneWayFunction_eq_ok.2 ⟨hprev, rfl, rfl⟩
        have hb := Key.oneWayFunction_bytes ho
        dsimp only at hb
        have h1 := ih (k := ⟨Key.padData ((chainHash C k.chain (owfMessage k.chain k.bytes prev)).take k.chain.keySizeBytes),
            k.chain, prev⟩) (by rw [hb]) hc (by rw [hb]; exact hd)
        have hka : k.gst.Aligned := by unfold Gst.Aligned at *; omega
        have hun : ApiKey C (ApiPk C trusted roots) false k := by
          refine .fromSlice (bytes := k.bytes) (gst := k.gst) (chain := k.chain) ?_
          unfold Key.fromSlice Key.checkGst
          rw [(Gst.isSubframe_iff _).2 hka, k.bytes_length]
          simp only [Res.assert_true, Res.ok_bind, BEq.rfl, Res.pure_eq]
          rw [← hp]
        refine .validateKey h1 hun ((C23_accepts_iff _ _ _ h1.aligned hka).2 ⟨rfl, rfl, 1, by omega, by omega, by dsimp only; omega, ?_⟩)
        dsimp only
        rw [hb]
        exact .succ _ _ prev _ _ hprev (.zero _)
  · have htime := hd.time
    dsimp only at htime
    obtain ⟨k', hk'⟩ := Key.derive_returns (C := C) (k := ⟨Key.padData kr.bytes, kr.chain, kr.gst⟩) (n := m) (by
      have := k.gst.abs_representable
      unfold Representable at this
      dsimp only
      omega)
    have hg := Key.derive_gst hk'
    have hdd := Key.derive_derives hk'
    rw [padData_bytes _ _ _ kr.bytes_length] at hdd
    dsimp only at hdd hg
    rw [hc] at hdd
    have e := hdd.det hd
    simp only [Prod.mk.injEq] at e
    rcases Nat.eq_zero_or_pos m with rfl | hm
    · have e2 := hd.det (.zero _)
      simp only [Prod.mk.injEq] at e2
      have e : k = ⟨Key.padData kr.bytes, kr.chain, kr.gst⟩ :=
        Key.ext_bytes hp (by rw [padData_bytes _ _ _ kr.bytes_length])
          (by rw [padData_bytes _ _ _ kr.bytes_length]; exact e2.2) hc.symm e2.1
      rw [e]; exact hroot
    · have hpk' : k'.data = Key.padData k'.bytes := by
        obtain ⟨m, rfl⟩ : ∃ j, m = j + 1 := ⟨m - 1, by omega⟩
        rw [Key.derive_add] at hk'
        obtain ⟨k1, _, h2⟩ := Res.bind_eq_ok.1 hk'
        rw [Key.derive_succ] at h2
        obtain ⟨k2, h3, h4⟩ := Res.bind_eq_ok.1 h2
        simp only [Key.derive, Res.ok.injEq] at h4
        subst h4
        rw [Key.oneWayFunction_bytes h3, (Key.oneWayFunction_eq_ok.1 h3).2.2]
      have e3 : k' = k := Key.ext_bytes hpk' hp e.2 (by rw [hg.1, hc]) e.1
      rw [← e3]
      exact .derive hroot hk'

/-- A program that never calls `derive` or `one_way_function` on validated keys: every validated key is a
root key or comes from `validate_key`. -/
inductive ForwardKey (C : Crypto) (pks : PublicKey C → Prop) : Key → Prop
  | root {h h' : NmaHeader} {d : DsmKroot} {pk : PublicKey C} {k : Key} (hpk : pks pk)
      (hk : Key.fromDsmKroot C h d pk = .ok (.ok (k, h'))) : ForwardKey C pks k
  | next {k other k' : Key} (hk : ForwardKey C pks k) (ho : ApiKey C pks false other)
      (h : k.validateKey C other = .ok (.ok k')) : ForwardKey C pks k'

theorem ForwardKey.api {pks : PublicKey C → Prop} {k : Key} (h : ForwardKey C pks k) : ApiKey C pks true k := by
  induction h with
  | root hpk hk => exact .fromDsmKroot hpk hk
  | next _ ho h ih => exact .validateKey ih ho h

/-- **C71.** If the program goes only forward, then without any assumption every validated key leads to a
signed root key. -/
theorem C71_forward_key {k : Key} (h : ForwardKey C (ApiPk C trusted roots) k) :
    ∃ (kr : Key) (n : Nat), RootAnchored trusted roots kr ∧ kr.chain = k.chain ∧
      Derives C k.chain n (k.gst, k.bytes) (kr.gst, kr.bytes) := by
  induction h with
  | root hpk hk =>
    obtain ⟨_, _, ⟨f, n, hs⟩, ha, _⟩ := Key.fromDsmKroot_eq_ok.1 hk
    exact ⟨_, 0, ⟨_, _, _, f, n, C71_public_key hpk, hs, ha⟩, rfl, .zero _⟩
  | next hk ho h ih =>
    obtain ⟨kr, m, h1, h2, h3⟩ := ih
    obtain ⟨rfl, hc, n, _, _, _, hd⟩ := (C23_accepts_iff _ _ _ hk.api.aligned ho.aligned).1 h
    refine ⟨kr, n + m, h1, h2.trans hc, ?_⟩
    rw [← hc]
    exact hd.trans h3

/-- **C71.** Every value of type `NmaHeader<Validated>` is the header under which a DSM-KROOT is signed by an
anchored public key, and every such header (of a DSM-KROOT with a usable time) can be had. -/
theorem C71_header_iff {h : NmaHeader} : ApiHeader C (ApiPk C trusted roots) h ↔
    ∃ pk data f n kr, PkAnchored trusted roots pk ∧ SignedKroot C pk.key h data f n ∧
      (bitField data 48 8 ≤ 167 ∧ ¬ (bitField data 36 12 = 0 ∧ bitField data 48 8 = 0)) ∧ AnnouncedKey data kr := by
  constructor
  · rintro ⟨hpk, hk⟩
    obtain ⟨rfl, ht, ⟨f, n, hs⟩, ha, _⟩ := Key.fromDsmKroot_eq_ok.1 hk
    exact ⟨_, _, f, n, _, C71_public_key hpk, hs, ht, ha⟩
  · rintro ⟨pk, data, f, n, kr, h1, h2, h3, h4⟩
    have hb : ∀ d : Bytes 32, d = Key.padData kr.bytes → (Key.mk d kr.chain kr.gst).bytes = kr.bytes := by
      rintro d rfl
      exact Key.padData_take kr.bytes_length kr.chain.keySize_le
    refine .fromDsmKroot (d := ⟨data⟩) (k := ⟨Key.padData kr.bytes, kr.chain, kr.gst⟩) (C71_public_key_iff.2 h1)
      (Key.fromDsmKroot_eq_ok.2 ⟨rfl, h3, ⟨f, n, h2⟩, ?_, ?_⟩)
    · exact ⟨by rw [hb _ rfl]; exact h4.bytes, h4.id, h4.hf, h4.mf, h4.ks, h4.ts, h4.maclt, h4.alpha, h4.time⟩
    · rw [hb _ rfl]

/-- **C71.** Every value of type `Mack<Validated>` made with the sizes of a chain (as `Mack::new` demands) has,
for some satellite and subframe, a right MACSEQ under a validated key, and tags that conform to the look-up
table of the chain of that key.  (Which key, satellite and subframe is not recorded in the type.) -/
theorem C71_mack {pks : PublicKey C → Prop} {msg : MackMessage} {c : Chain}
    (h : ApiMack C pks (Mack.new msg c.keySizeBits c.tagSizeBits)) :
    ∃ k prna g, ApiKey C pks true k ∧ MackConforms C k c msg prna g := by
  generalize hm : Mack.new msg c.keySizeBits c.tagSizeBits = m at h
  cases h with
  | @validate msg' ks ts _ k prna g hk hv =>
    have e := Mack.validate_same hv
    rw [← hm] at e
    rw [← e] at hv
    obtain ⟨_, slots, h1, _, h3, h4⟩ := (Mack.validate_iff msg k c prna g).1 ⟨_, hv⟩
    exact ⟨k, prna, g, hk, slots, h1, h3, h4⟩

/-! ## A concrete program

It trusts public key 1, obtains the root key from a signed DSM-KROOT and then, with `validate_key`, the keys of
two later subframes, and validates a MACK. -/

example : ApiKey Sim.toy (ApiPk Sim.toy (fun pk => pk = Sim.pub 1) (fun _ => False)) true (Sim.key (Sim.chain 1) 36390) :=
  Sim.apiKey2

example : ForwardKey Sim.toy (ApiPk Sim.toy (fun pk => pk = Sim.pub 1) (fun _ => False)) (Sim.key (Sim.chain 1) 36390) :=
  .next (.next (.root (.forced rfl) Sim.apiRoot_ok) (Sim.apiKey_had 36090 (by decide +kernel)) Sim.apiKey_ok)
    (Sim.apiKey_had 36390 (by decide +kernel)) Sim.apiKey_ok'

example : ApiHeader Sim.toy (ApiPk Sim.toy (fun pk => pk = Sim.pub 1) (fun _ => False)) ⟨Sim.hdr1⟩ :=
  .fromDsmKroot (.forced rfl) Sim.apiRoot_ok

example : ApiMack Sim.toy (ApiPk Sim.toy (fun pk => pk = Sim.pub 1) (fun _ => False))
    (.new Sim.apiMack (Sim.chain 1).keySizeBits (Sim.chain 1).tagSizeBits) := .validate Sim.apiKey1 Sim.apiMack_ok

end Verif
