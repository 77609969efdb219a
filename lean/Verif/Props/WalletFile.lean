import Verif.Proofs.WalletFile
import Verif.Props.HDWallet
import Verif.Spec.Text

/-!
# C146: what a wallet file holds at every moment, with the text written down

C54 leaves the JSON writer and reader open.  Here they are the ones of `Model/WalletFile`; the writer may put
the entries of the dictionary in any order.
-/

namespace NBC.Props
open NBC Spec Wallet Aes

/-- A writer of JSON text: the entries of the dictionary in some order. -/
def Writer (json : AnyCfg → Bytes) : Prop := ∀ c, ∃ d, d.Perm (cfgItems c) ∧ json c = jDump d

/-- The writer that keeps the order of the source is one, and so is the one that reverses it. -/
theorem writer_source : Writer (fun c => jDump (cfgItems c)) := fun _ => ⟨_, List.Perm.refl _, rfl⟩

theorem writer_reverse : Writer (fun c => jDump (cfgItems c).reverse) := fun _ => ⟨_, List.reverse_perm _, rfl⟩

/-- The text of a small wallet, as the JSON module writes it. -/
example : jDump (cfgItems (.default ⟨false, 7, true, some [97, 98], none⟩)) =
    ascii "{\"encrypted\": false, \"type\": \"default\", \"vcn\": 7, \"testnet\": true, \"prvkey\": \"ab\", \"pubkey\": null}" := by
  decide +kernel

/-- A text somebody laid out by hand is read as well: other order, other white space, a key given twice. -/
example : readCfg (ascii "{ \"type\":\"x\", \"pubkey\" : \"0a\" ,\n\"prvkey\":null,\"testnet\":0,\"vcn\":-12, \"type\":\"default\"}\n") =
    .ok (.default ⟨false, -12, false, none, some [48, 97]⟩) := by
  decide +kernel

/-- Texts that are refused: an entry is missing, a quote is missing, a comma too much, a leading zero, more after
the end, no dictionary. -/
example : readCfg (ascii "{\"type\": \"default\", \"prvkey\": null}") = .error .keyError ∧
    readCfg (ascii "{\"type\": \"default}") = .error .valueError ∧
    readCfg (ascii "{\"type\": \"default\",}") = .error .valueError ∧
    readCfg (ascii "{\"vcn\": 01}") = .error .valueError ∧
    readCfg (ascii "{} {}") = .error .valueError ∧
    readCfg (ascii "17") = .error .attributeError := by
  decide +kernel

/-- C146: what was dumped is read back from the text, whatever the order of its entries. -/
theorem C146_read (ver : PyVer) (json : AnyCfg → Bytes) (hj : Writer json) (w : AnyWallet) (pw : Bytes)
    (cfg : AnyCfg) (h : w.dump ver pw = .ok cfg) : readCfg (json cfg) = .ok cfg := by
  obtain ⟨h0, hp⟩ := dump_plain h
  obtain ⟨d, hd, e⟩ := hj cfg
  unfold readCfg
  rw [e, jLoads_jDump d (fun x hx => hp x (hd.mem_iff.1 hx)), ok_bind, cfgOf_perm cfg h0 d hd]

/-- `null`, or a text in quotes. -/
def quoted : Option Bytes → Bytes
  | none => ascii "null"
  | some t => ascii "\"" ++ t ++ ascii "\""

/-- `true` or `false` -/
def truth (b : Bool) : Bytes := if b then ascii "true" else ascii "false"

/-- C146: the text of a file, as it is known to other programs, when the entries are written in the order of the source. -/
theorem C146_text : (∀ c : AddrCfg, jDump (cfgItems (.default c)) = ascii "{\"encrypted\": " ++ truth c.encrypted ++
      ascii ", \"type\": \"default\", \"vcn\": " ++ jInt c.vcn ++ ascii ", \"testnet\": " ++ truth c.testnet ++
      ascii ", \"prvkey\": " ++ quoted c.prvkey ++ ascii ", \"pubkey\": " ++ quoted c.pubkey ++ ascii "}") ∧
    ∀ c : HDCfg, jDump (cfgItems (.hd c)) = ascii "{\"encrypted\": " ++ truth c.encrypted ++
      ascii ", \"type\": \"HD\", \"chain\": " ++ quoted (some c.chain) ++ ascii ", \"vcn\": " ++ jInt c.vcn ++
      ascii ", \"testnet\": " ++ truth c.testnet ++ ascii ", \"depth\": " ++ jInt c.depth ++
      ascii ", \"parentfp\": " ++ quoted (some c.parentfp) ++ ascii ", \"childnum\": " ++ jInt c.childnum ++
      ascii ", \"prvkey\": " ++ quoted c.prvkey ++ ascii ", \"pubkey\": " ++ quoted c.pubkey ++ ascii "}" := by
  have hb : ∀ b, jVal (.bool b) = truth b := by decide +kernel
  have ho : ∀ o, jVal (jOpt o) = quoted o := by
    intro o
    cases o with
    | none => decide +kernel
    | some t => rw [quoted, show ascii "\"" = [34] by decide +kernel]; simp [jOpt, jVal, jStr]
  have hs : ∀ t, jVal (.str t) = quoted (some t) := fun t => ho (some t)
  have hi : ∀ i, jVal (.int i) = jInt i := fun _ => rfl
  constructor
  · intro c
    simp only [jDump, cfgItems, List.map_cons, List.map_nil, jJoin, jItem, hb, ho, hi]
    rw [show ascii "{\"encrypted\": " = 123 :: (jStr kEncrypted ++ [58, 32]) by decide +kernel,
      show ascii ", \"type\": \"default\", \"vcn\": " = 44 :: 32 :: (jStr kType ++ (58 :: 32 :: jVal (.str tDefault)) ++
        (44 :: 32 :: (jStr kVcn ++ [58, 32]))) by decide +kernel,
      show ascii ", \"testnet\": " = 44 :: 32 :: (jStr kTestnet ++ [58, 32]) by decide +kernel,
      show ascii ", \"prvkey\": " = 44 :: 32 :: (jStr kPrvkey ++ [58, 32]) by decide +kernel,
      show ascii ", \"pubkey\": " = 44 :: 32 :: (jStr kPubkey ++ [58, 32]) by decide +kernel,
      show ascii "}" = [125] by decide +kernel]
    simp only [List.append_assoc, List.cons_append, List.nil_append]
  · intro c
    simp only [jDump, cfgItems, List.map_cons, List.map_nil, jJoin, jItem, hb, ho, hi]
    rw [show ascii "{\"encrypted\": " = 123 :: (jStr kEncrypted ++ [58, 32]) by decide +kernel,
      show ascii ", \"type\": \"HD\", \"chain\": " = 44 :: 32 :: (jStr kType ++ (58 :: 32 :: jVal (.str tHD)) ++
        (44 :: 32 :: (jStr kChain ++ [58, 32]))) by decide +kernel,
      show ascii ", \"vcn\": " = 44 :: 32 :: (jStr kVcn ++ [58, 32]) by decide +kernel,
      show ascii ", \"testnet\": " = 44 :: 32 :: (jStr kTestnet ++ [58, 32]) by decide +kernel,
      show ascii ", \"depth\": " = 44 :: 32 :: (jStr kDepth ++ [58, 32]) by decide +kernel,
      show ascii ", \"parentfp\": " = 44 :: 32 :: (jStr kParentfp ++ [58, 32]) by decide +kernel,
      show ascii ", \"childnum\": " = 44 :: 32 :: (jStr kChildnum ++ [58, 32]) by decide +kernel,
      show ascii ", \"prvkey\": " = 44 :: 32 :: (jStr kPrvkey ++ [58, 32]) by decide +kernel,
      show ascii ", \"pubkey\": " = 44 :: 32 :: (jStr kPubkey ++ [58, 32]) by decide +kernel,
      show ascii "}" = [125] by decide +kernel, ← hs, ← hs]
    simp only [List.append_assoc, List.cons_append, List.nil_append]

/-- C146: every proper beginning of that text, the empty one too, is refused with `ValueError`. -/
theorem C146_cut (ver : PyVer) (json : AnyCfg → Bytes) (hj : Writer json) (w : AnyWallet) (pw : Bytes)
    (cfg : AnyCfg) (h : w.dump ver pw = .ok cfg) (k : Nat) (hk : k < (json cfg).length) :
    readCfg ((json cfg).take k) = .error .valueError := by
  obtain ⟨h0, hp⟩ := dump_plain h
  obtain ⟨d, hd, e⟩ := hj cfg
  rw [e] at hk ⊢
  unfold readCfg
  rw [jLoads_take d (fun x hx => hp x (hd.mem_iff.1 hx)) k hk, error_bind]

theorem skipWs_nil_iff (t : Bytes) : skipWs t = [] ↔ ∀ c ∈ t, c = 32 ∨ c = 9 ∨ c = 10 ∨ c = 13 := by
  induction t with
  | nil => simp [skipWs]
  | cons c t ih =>
    have hw : jWs c = true ↔ c = 32 ∨ c = 9 ∨ c = 10 ∨ c = 13 := by
      simp [jWs, or_assoc]
    rw [skipWs]
    by_cases h : jWs c = true
    · rw [if_pos h, ih]
      simp [hw.1 h]
    · rw [if_neg h]
      constructor
      · intro h0
        simp at h0
      · intro h0
        exact absurd (hw.2 (h0 c (by simp))) h

theorem jLoads_tail (d : JDict) (h : ∀ x ∈ d, PlainItem x) (tail : Bytes) :
    jLoads (jDump d ++ tail) = if skipWs tail = [] then .ok d else .error .valueError := by
  unfold jLoads jDump
  rw [List.cons_append, skipWs_brace]
  simp only
  rw [if_pos trivial]
  have : scanDict (jJoin (d.map jItem) ++ [125] ++ tail) = .ok (d, tail) := by
    cases d with
    | nil => rfl
    | cons x l =>
      obtain ⟨cs, hc⟩ := jJoin_head x l
      have hs := scanItems_ok (x :: l) (by simp) h tail (jJoin ((x :: l).map jItem) ++ [125] ++ tail).length
        (by have := length_le_jJoin (x :: l); simp only [List.length_append]; omega)
      rw [List.append_assoc, List.singleton_append] at hs ⊢
      unfold scanDict
      rw [hc] at hs ⊢
      rw [List.cons_append] at hs ⊢
      rw [skipWs, if_neg (by decide)]
      simp only
      rw [if_neg (by decide), hs]
  rw [this, ok_bind]

/-- C146: a text that goes on after the wallet, as when a long file is written over without being cut, is refused, unless only
white space follows. -/
theorem C146_tail (ver : PyVer) (json : AnyCfg → Bytes) (hj : Writer json) (w : AnyWallet) (pw : Bytes)
    (cfg : AnyCfg) (h : w.dump ver pw = .ok cfg) (tail : Bytes) :
    ((∀ c ∈ tail, c = 32 ∨ c = 9 ∨ c = 10 ∨ c = 13) → readCfg (json cfg ++ tail) = .ok cfg) ∧
    ((∃ c ∈ tail, c ≠ 32 ∧ c ≠ 9 ∧ c ≠ 10 ∧ c ≠ 13) → readCfg (json cfg ++ tail) = .error .valueError) := by
  obtain ⟨h0, hp⟩ := dump_plain h
  obtain ⟨d, hd, e⟩ := hj cfg
  unfold readCfg
  rw [e, jLoads_tail d (fun x hx => hp x (hd.mem_iff.1 hx))]
  constructor
  · intro ht
    rw [if_pos ((skipWs_nil_iff tail).2 ht), ok_bind, cfgOf_perm cfg h0 d hd]
  · rintro ⟨c, hc, h1, h2, h3, h4⟩
    rw [if_neg, error_bind]
    intro h0
    rcases (skipWs_nil_iff tail).1 h0 c hc with h | h | h | h
    · exact h1 h
    · exact h2 h
    · exact h3 h
    · exact h4 h

/-- C146: of a key that a file gives twice the later entry counts, as in every JSON reader of Python. -/
theorem C146_twice (before after : JDict) (k : Bytes) (v : JVal) (h : ∀ x ∈ after, x.1 ≠ k) :
    jGet (before ++ (k, v) :: after) k = some v := by
  have ha : after.filter (fun x => x.1 = k) = [] := by
    rw [List.filter_eq_nil_iff]
    intro x hx
    simpa using h x hx
  unfold jGet
  rw [List.filter_append, List.filter_cons_of_pos (by simp), ha, List.getLast?_append]
  rfl

/-- C146: and a key that is in no entry is not found. -/
theorem C146_absent (d : JDict) (k : Bytes) (h : ∀ x ∈ d, x.1 ≠ k) : jGet d k = none := by
  have ha : d.filter (fun x => x.1 = k) = [] := by
    rw [List.filter_eq_nil_iff]
    intro x hx
    simpa using h x hx
  unfold jGet
  rw [ha]
  rfl

/-- C146: at every moment of a save the file holds the old content, or the complete new one, or something
`loadFrom` refuses with `ValueError`, whatever passphrase is given.  So a crash can lose the wallet, but never
makes the file load as another one. -/
theorem C146_crash (ver : PyVer) (H : Hashes) (json : AnyCfg → Bytes) (hj : Writer json) (w : AnyWallet)
    (pw : Bytes) (old : Option Bytes) (cuts : List Nat) :
    ∀ c ∈ saveTo ver json w pw old cuts, c = old ∨
      (∃ cfg, w.dump ver pw = .ok cfg ∧ c = some (json cfg) ∧
        ∀ q prompt, loadFrom ver H readCfg c q prompt = cfg.load ver H q prompt) ∨
      ∀ q prompt, loadFrom ver H readCfg c q prompt = .error .valueError := by
  intro c hc
  unfold saveTo at hc
  cases h : w.dump ver pw with
  | error e =>
    rw [h] at hc
    exact .inl (by simpa using hc)
  | ok cfg =>
    rw [h] at hc
    have full : c = some (json cfg) → (∃ cfg', Except.ok (ε := PyErr) cfg = .ok cfg' ∧ c = some (json cfg') ∧
        ∀ q prompt, loadFrom ver H readCfg c q prompt = cfg'.load ver H q prompt) := by
      rintro rfl
      refine ⟨cfg, rfl, rfl, fun q prompt => ?_⟩
      unfold loadFrom
      simp only
      rw [C146_read ver json hj w pw cfg h, ok_bind]
    have cut : ∀ k, c = some ((json cfg).take k) → (∃ cfg', Except.ok (ε := PyErr) cfg = .ok cfg' ∧
        c = some (json cfg') ∧ ∀ q prompt, loadFrom ver H readCfg c q prompt = cfg'.load ver H q prompt) ∨
        ∀ q prompt, loadFrom ver H readCfg c q prompt = .error .valueError := by
      intro k hk
      by_cases hl : k < (json cfg).length
      · right
        subst hk
        intro q prompt
        unfold loadFrom
        simp only
        rw [C146_cut ver json hj w pw cfg h k hl, error_bind]
      · left
        rw [List.take_of_length_le (by omega)] at hk
        exact full hk
    simp only [List.cons_append, List.nil_append, List.mem_cons, List.mem_append, List.mem_map, List.not_mem_nil,
      or_false] at hc
    rcases hc with rfl | rfl | ⟨k, -, rfl⟩ | rfl
    · exact .inl rfl
    · exact .inr (cut 0 (by simp))
    · exact .inr (cut k rfl)
    · exact .inr (.inl (full rfl))

/-- C146: a save that is not interrupted, of a wallet that has its private key, is loaded again with the same
passphrase; nothing is assumed about the JSON reader any more (compare `C54_complete_partial`). -/
theorem C146_complete (ver : PyVer) (H : Hashes) (json : AnyCfg → Bytes) (hj : Writer json) (pw prompt : Bytes)
    (old : Option Bytes) (cuts : List Nat) :
    (∀ a : Address, Made H a → a.privKey ≠ none → ∃ c, (saveTo ver json (.default a) pw old cuts).getLast? = some c ∧
      loadFrom ver H readCfg c pw prompt = .ok (.default a)) ∧
    (∀ (w : HDWallet) k, HDMade w → w.key = .prv k → ∃ c, (saveTo ver json (.hd w) pw old cuts).getLast? = some c ∧
      loadFrom ver H readCfg c pw prompt = .ok (.hd { w with parentfp := w.parentFp })) := by
  have last : ∀ (w : AnyWallet) cfg, w.dump ver pw = .ok cfg →
      (saveTo ver json w pw old cuts).getLast? = some (some (json cfg)) := by
    intro w cfg h
    unfold saveTo
    rw [h]
    simp only
    rw [List.getLast?_append, List.getLast?_singleton]
    rfl
  constructor
  · intro a ha hp
    obtain ⟨cfg, h1, h2⟩ := C45_private_partial ver H a ha hp pw
    have hd : (AnyWallet.default a).dump ver pw = .ok (.default cfg) := by
      unfold AnyWallet.dump
      simp only
      rw [h1, ok_bind]
    refine ⟨_, last _ _ hd, ?_⟩
    unfold loadFrom
    simp only
    rw [C146_read ver json hj _ pw _ hd, ok_bind]
    unfold AnyCfg.load
    simp only
    rw [h2]
    rfl
  · intro w k hw hk
    obtain ⟨cfg, h1, h2⟩ := C46_private_partial ver w k hw hk pw
    have hd : (AnyWallet.hd w).dump ver pw = .ok (.hd cfg) := by
      unfold AnyWallet.dump
      simp only
      rw [h1, ok_bind]
    refine ⟨_, last _ _ hd, ?_⟩
    unfold loadFrom
    simp only
    rw [C146_read ver json hj _ pw _ hd, ok_bind]
    unfold AnyCfg.load
    simp only
    rw [h2]
    rfl

/-- C146: two files that different Python versions write for the same wallet are read to the same dictionary. -/
theorem C146_order (ver : PyVer) (H : Hashes) (json json' : AnyCfg → Bytes) (hj : Writer json) (hj' : Writer json')
    (w : AnyWallet) (pw : Bytes) (cfg : AnyCfg) (h : w.dump ver pw = .ok cfg) (q prompt : Bytes) :
    loadFrom ver H readCfg (some (json cfg)) q prompt = loadFrom ver H readCfg (some (json' cfg)) q prompt := by
  unfold loadFrom
  simp only
  rw [C146_read ver json hj w pw cfg h, C146_read ver json' hj' w pw cfg h]

/-- The hypotheses can be met: a public wallet at the point with `x = 2` is dumped under every passphrase, and
its file cut in the middle of the chain code is refused. -/
example (ver : PyVer) : ∃ cfg, (AnyWallet.hd ⟨.pub (.aff 2 yTwo none), List.replicate 32 171, 0, false, 0, [], 0⟩).dump ver [] =
    .ok cfg ∧ readCfg ((jDump (cfgItems cfg)).take 70) = .error .valueError := by
  have h : ∃ cfg, (AnyWallet.hd ⟨.pub (.aff 2 yTwo none), List.replicate 32 171, 0, false, 0, [], 0⟩).dump ver [] =
      .ok (.hd cfg) ∧ 70 < (jDump (cfgItems (.hd cfg))).length := by
    cases ver <;> exact ⟨_, rfl, by decide +kernel⟩
  obtain ⟨cfg, h1, h2⟩ := h
  exact ⟨_, h1, C146_cut ver _ writer_source _ _ _ h1 70 h2⟩

end NBC.Props
