import Verif.Model.Passphrase
import Verif.Proofs.Wire
import Verif.Proofs.Built
import Verif.Props.WalletFile

/-!
# C158: the passphrase that is typed

A wallet is saved with a passphrase of bytes.  Which line, typed at the prompt, opens it?
-/

namespace NBC.Spec
open NBC.Aes (PyVer)

/-- The white bytes a prompt takes away at the ends of a line: six in Python 2, and those of latin-1 in Python 3. -/
def white : PyVer → List UInt8
  | .py2 => [9, 10, 11, 12, 13, 32]
  | .py3 => [9, 10, 11, 12, 13, 28, 29, 30, 31, 32, 133, 160]

/-- The numbers of the white characters of Unicode (`str.isspace`), which a prompt takes away in Python 3. -/
def whiteText : List Nat :=
  [9, 10, 11, 12, 13, 28, 29, 30, 31, 32, 133, 160, 5760, 8192, 8193, 8194, 8195, 8196, 8197, 8198, 8199, 8200, 8201, 8202,
    8232, 8233, 8239, 8287, 12288]

/-- The encoding of a text in UTF-8, RFC 3629, as far as characters of one and two bytes go. -/
def utf8 : List Char → Bytes
  | [] => []
  | c :: cs => (if c.toNat < 128 then [UInt8.ofNat c.toNat]
      else [UInt8.ofNat (192 + c.toNat / 64), UInt8.ofNat (128 + c.toNat % 64)]) ++ utf8 cs

end NBC.Spec

namespace NBC.Props
open NBC NBC.Aes NBC.Wallet NBC.Proto Spec

/-- What a prompt returns: `str` in Python 2, text in Python 3. -/
def IsLine : PyVer → Phrase → Prop
  | .py2, p => ∃ b, p = .bytes b
  | .py3, p => ∃ s, p = .text s

/-- The line with these bytes (in Python 3: with the characters of these numbers) -/
def lineOf : PyVer → Bytes → Phrase
  | .py2, b => .bytes b
  | .py3, b => .text (latin1Decode b)

theorem lineOf_isLine (ver : PyVer) (b : Bytes) : IsLine ver (lineOf ver b) := by
  cases ver
  · exact ⟨_, rfl⟩
  · exact ⟨_, rfl⟩

/-- A wallet with its private key, as the constructors make it -/
def Private (H : Hashes) : AnyWallet → Prop
  | .default a => Made H a ∧ a.privKey ≠ none
  | .hd w => HDMade w ∧ ∃ k, w.key = .prv k

/-- The wallet that comes back: an HD wallet holds the fingerprint it shows. -/
def reopened : AnyWallet → AnyWallet
  | .default a => .default a
  | .hd w => .hd { w with parentfp := w.parentFp }

/-! ### Stripping -/

theorem white_bytes : ∀ i < 256, (isSpace (UInt8.ofNat i) = decide (UInt8.ofNat i ∈ white .py2)) ∧
    (spaceChar (Char.ofNat (UInt8.ofNat i).toNat) = decide (UInt8.ofNat i ∈ white .py3)) := by
  decide +kernel

theorem white_py2 (c : UInt8) : isSpace c = decide (c ∈ white .py2) := by
  have := (white_bytes c.toNat (UInt8.toNat_lt c)).1
  rwa [UInt8.ofNat_toNat] at this

theorem white_py3 (c : UInt8) : spaceChar (Char.ofNat c.toNat) = decide (c ∈ white .py3) := by
  have := (white_bytes c.toNat (UInt8.toNat_lt c)).2
  rwa [UInt8.ofNat_toNat] at this

theorem stripWith_map {α β : Type} (f : α → β) (s : β → Bool) (l : List α) :
    stripWith s (l.map f) = (stripWith (fun a => s (f a)) l).map f := by
  have h : ∀ l : List α, (l.map f).dropWhile s = (l.dropWhile (fun a => s (f a))).map f := by
    intro l
    induction l with
    | nil => rfl
    | cons x l ih =>
      simp only [List.map_cons, List.dropWhile_cons, ih]
      split <;> rfl
  simp only [stripWith, h, ← List.map_reverse]

theorem strip_line (ver : PyVer) (b : Bytes) :
    (lineOf ver b).strip = lineOf ver (stripWith (fun c => decide (c ∈ white ver)) b) := by
  cases ver with
  | py2 =>
    simp only [lineOf, Phrase.strip]
    congr 2
    exact funext white_py2
  | py3 =>
    simp only [lineOf, Phrase.strip, latin1Decode, stripWith_map]
    congr 3
    exact funext white_py3

theorem stripWith_first {α : Type} (s : α → Bool) (l r : List α) (c : α) (h : stripWith s l = c :: r) : s c = false := by
  unfold stripWith at h
  generalize hd : l.dropWhile s = d at h
  have h1 : d.reverse.dropWhile s = r.reverse ++ [c] := by
    have := congrArg List.reverse h
    simpa using this
  cases d with
  | nil => simp at h1
  | cons x d =>
    have hx : s x = false := by
      have := List.head?_dropWhile_not s l
      rw [hd] at this
      simpa using this
    have hc : c = x := by
      have h2 : (d.reverse ++ [x]).dropWhile s = r.reverse ++ [c] := by simpa using h1
      have h3 := List.dropWhile_suffix (p := s) (l := d.reverse ++ [x])
      rw [h2] at h3
      obtain ⟨t, ht⟩ := h3
      have := congrArg List.getLast? ht
      simpa using this
    rw [hc, hx]

theorem stripWith_id {α : Type} (s : α → Bool) (l : List α) (h1 : ∀ c, l.head? = some c → s c = false)
    (h2 : ∀ c, l.getLast? = some c → s c = false) : stripWith s l = l := by
  have key : ∀ l : List α, (∀ c, l.head? = some c → s c = false) → l.dropWhile s = l := by
    intro l h
    cases l with
    | nil => rfl
    | cons x l => rw [List.dropWhile_cons, h x rfl]; rfl
  unfold stripWith
  rw [key l h1, key l.reverse (by simpa using h2), List.reverse_reverse]

theorem encode_line (ver : PyVer) (b : Bytes) : (lineOf ver b).encode = .ok b := by
  cases ver with
  | py2 => rfl
  | py3 => exact latin1Encode_decode b

theorem empty_line (ver : PyVer) (b : Bytes) : (lineOf ver b).empty = b.isEmpty := by
  cases ver with
  | py2 => rfl
  | py3 => cases b <;> rfl

/-! ### The prompt -/

/-- A line of white characters only, or an empty one -/
def BlankLine (t : Phrase) : Prop := t.strip.empty = true

theorem ask_blank (p : Phrase) (hp : p.empty = true) (blanks ts : List Phrase) (hb : ∀ t ∈ blanks, BlankLine t) :
    ∃ q : Phrase, q.empty = true ∧ ask p (blanks ++ ts) = ask q ts := by
  induction blanks generalizing p with
  | nil => exact ⟨p, hp, rfl⟩
  | cons t l ih =>
    obtain ⟨q, hq, e⟩ := ih t.strip (hb t (by simp)) (fun t ht => hb t (by simp [ht]))
    refine ⟨q, hq, ?_⟩
    rw [List.cons_append, ask, if_pos hp, e]

theorem ask_line (p : Phrase) (hp : p.empty = true) (blanks : List Phrase) (t : Phrase) (rest : List Phrase)
    (hb : ∀ t ∈ blanks, BlankLine t) (ht : ¬ BlankLine t) : ask p (blanks ++ t :: rest) = some t.strip := by
  obtain ⟨q, hq, e⟩ := ask_blank p hp blanks (t :: rest) hb
  rw [e, ask, if_pos hq]
  unfold BlankLine at ht
  cases rest with
  | nil => rw [ask, if_neg ht]
  | cons x l => rw [ask, if_neg ht]

/-- What the prompt gives is a line without white ends. -/
theorem ask_some {ver : PyVer} {typed : List Phrase} (ht : ∀ t ∈ typed, IsLine ver t) :
    ∀ {p r : Phrase}, p.empty = true → ask p typed = some r → ∃ t ∈ typed, r = t.strip ∧ r.empty = false := by
  induction typed with
  | nil =>
    intro p r hp h
    rw [ask, if_pos hp] at h
    cases h
  | cons t l ih =>
    intro p r hp h
    rw [ask, if_pos hp] at h
    by_cases hb : t.strip.empty = true
    · obtain ⟨t', h1, h2⟩ := ih (fun t h => ht t (by simp [h])) hb h
      exact ⟨t', by simp [h1], h2⟩
    · have hr : r = t.strip := by
        cases l with
        | nil => rw [ask, if_neg hb] at h; injection h with h; exact h.symm
        | cons x l => rw [ask, if_neg hb] at h; injection h with h; exact h.symm
      exact ⟨t, by simp, hr, by rw [hr]; simpa using hb⟩

/-- The bytes of what the prompt gives begin with one that is not white. -/
theorem ask_head {ver : PyVer} {typed : List Phrase} (ht : ∀ t ∈ typed, IsLine ver t) {p r : Phrase} (hp : p.empty = true)
    (h : ask p typed = some r) {b : Bytes} (hb : r.encode = .ok b) : ∃ c l, b = c :: l ∧ c ∉ white ver := by
  obtain ⟨t, h1, h2, h3⟩ := ask_some ht hp h
  have h4 := ht t h1
  cases ver with
  | py2 =>
    obtain ⟨x, rfl⟩ := h4
    subst h2
    simp only [Phrase.strip, Phrase.encode] at hb h3
    injection hb with hb
    cases b with
    | nil => rw [hb] at h3; cases h3
    | cons c l =>
      refine ⟨c, l, rfl, ?_⟩
      have := stripWith_first _ _ _ _ hb
      rw [white_py2] at this
      simpa using this
  | py3 =>
    obtain ⟨x, rfl⟩ := h4
    subst h2
    simp only [Phrase.strip, Phrase.encode] at hb h3
    have := latin1_inv hb
    cases b with
    | nil => rw [this] at h3; cases h3
    | cons c l =>
      refine ⟨c, l, rfl, ?_⟩
      have := stripWith_first _ _ _ _ this
      rw [white_py3] at this
      simpa using this

/-! ### Loading -/

theorem secret_needs {ver : PyVer} {s s' p t : Bytes} {e : Bool} (hp : p ≠ []) (h : dumpSecret ver s p = .ok (t, e))
    (hl : loadSecret ver t e p [] = .ok s') : t ≠ [] ∧ e = true ∧ AnyCfg.needsPhrase.reaches t e = true := by
  unfold dumpSecret at h
  obtain ⟨-, -, h⟩ := bind_ok_iff.1 h
  simp only [ne_eq, hp, not_false_eq_true, if_true] at h
  obtain ⟨c, hc, h⟩ := bind_ok_iff.1 h
  injection h with h
  injection h with h1 h2
  subst h1
  subst h2
  unfold loadSecret at hl
  rw [unhexlify_hexlify, ok_bind] at hl
  simp only [if_true] at hl
  obtain ⟨d, hd, -⟩ := bind_ok_iff.1 hl
  unfold aesDecrypt at hd
  by_cases hb : c.length / 16 = 0 ∨ c.length / 16 ≥ 16 ∨ c.length % 16 ≠ 0
  · rw [if_pos hb] at hd
    cases hd
  · have ht : hexlify c ≠ [] := by
      intro h0
      have := unhexlify_hexlify c
      rw [h0] at this
      have := Except.ok.inj this
      rw [← this] at hb
      simp at hb
    refine ⟨ht, rfl, ?_⟩
    unfold AnyCfg.needsPhrase.reaches
    rw [unhexlify_hexlify]
    simp only [decide_eq_true ht, decide_eq_false hb]
    rfl

/-- What is dumped with a passphrase asks for one, and opens with it. -/
theorem dumped (ver : PyVer) (H : Hashes) (w : AnyWallet) (hw : Private H w) (p : Bytes) (hp : p ≠ []) : ∃ cfg,
    w.dump ver p = .ok cfg ∧ cfg.needsPhrase = true ∧ cfg.load ver H p [] = .ok (reopened w) := by
  cases w with
  | default a =>
    obtain ⟨cfg, h1, h2⟩ := C45_private_partial ver H a hw.1 hw.2 p
    refine ⟨.default cfg, ?_, ?_, ?_⟩
    · unfold AnyWallet.dump
      simp only
      rw [h1, ok_bind]
    · have h3 := h2 [] 0
      unfold Address.dump at h1
      cases hk : a.privKey with
      | none => exact absurd hk hw.2
      | some k =>
        rw [hk] at h1
        obtain ⟨⟨t, e⟩, hs, h1⟩ := bind_ok_iff.1 h1
        injection h1 with h1
        subst h1
        unfold Address.load at h3
        simp only at h3
        by_cases ht : t = []
        · exfalso
          subst ht
          unfold dumpSecret at hs
          obtain ⟨_, h255, hs⟩ := bind_ok_iff.1 hs
          have h255 : k.length ≤ 255 := by
            by_contra hk'
            rw [decide_eq_false hk'] at h255
            cases h255
          simp only [ne_eq, hp, not_false_eq_true, if_true] at hs
          obtain ⟨c, hc, hs⟩ := bind_ok_iff.1 hs
          injection hs with hs
          injection hs with hs hs'
          obtain ⟨c', hc', hcl, -⟩ := aes_roundtrip ver (fmtHexPad 2 k.length ++ k) p
          rw [hc] at hc'
          injection hc' with hc'
          subst hc'
          have h5 := unhexlify_hexlify c
          rw [hs] at h5
          have h5 := Except.ok.inj h5
          rw [← h5] at hcl
          have h6 : 0 < (fmtHexPad 2 k.length ++ k).length := by
            rw [List.length_append]
            have := (prefix_table k.length (by omega)).1
            omega
          simp only [List.length_nil] at hcl
          omega
        · rw [if_pos ht] at h3
          obtain ⟨s', hl, -⟩ := bind_ok_iff.1 h3
          obtain ⟨-, -, h⟩ := secret_needs hp hs hl
          exact h
    · unfold AnyCfg.load
      simp only
      rw [h2, ok_bind]
      rfl
  | hd w =>
    obtain ⟨hm, k, hk⟩ := hw
    obtain ⟨cfg, h1, h2⟩ := C46_private_partial ver w k hm hk p
    refine ⟨.hd cfg, ?_, ?_, ?_⟩
    · unfold AnyWallet.dump
      simp only
      rw [h1, ok_bind]
    · have h3 := h2 []
      unfold HDWallet.dump at h1
      rw [hk] at h1
      simp only at h1
      obtain ⟨s, -, h1⟩ := bind_ok_iff.1 h1
      obtain ⟨⟨t, e⟩, hs, h1⟩ := bind_ok_iff.1 h1
      injection h1 with h1
      subst h1
      unfold HDWallet.load at h3
      obtain ⟨key, hkey, -⟩ := bind_ok_iff.1 h3
      unfold HDCfg.key at hkey
      cases t with
      | nil => exact absurd hkey (by cases ver <;> simp)
      | cons c cs =>
        simp only [Option.getD_some] at hkey
        obtain ⟨s', hl, -⟩ := bind_ok_iff.1 hkey
        exact (secret_needs hp hs hl).2.2
    · unfold AnyCfg.load
      simp only
      rw [h2, ok_bind]
      rfl

theorem secret_key (ver : PyVer) (t : Bytes) (e : Bool) (b p : Bytes) (hb : b ≠ []) (hp : p ≠ [])
    (h : passKey b = passKey p) : loadSecret ver t e b [] = loadSecret ver t e p [] := by
  unfold loadSecret aesDecrypt
  simp only [if_neg hb, if_neg hp, h]

/-- A dictionary is loaded alike with two passphrases of the same key. -/
theorem load_key (ver : PyVer) (H : Hashes) (cfg : AnyCfg) (b p : Bytes) (hb : b ≠ []) (hp : p ≠ [])
    (h : passKey b = passKey p) : cfg.load ver H b [] = cfg.load ver H p [] := by
  cases cfg with
  | default c =>
    unfold AnyCfg.load Address.load
    simp only [secret_key ver _ _ b p hb hp h]
  | hd c =>
    unfold AnyCfg.load HDWallet.load HDCfg.key
    simp only [secret_key ver _ _ b p hb hp h]
  | other => rfl

/-! ### The claims -/

/-- C158: whoever types the passphrase with which the wallet was saved, after any number of empty or white lines, gets the
wallet back, if the passphrase neither begins nor ends with a white byte. -/
theorem C158_typed_partial (ver : PyVer) (H : Hashes) (w : AnyWallet) (hw : Private H w) (p : Bytes) (hp : p ≠ [])
    (h1 : ∀ c, p.head? = some c → c ∉ white ver) (h2 : ∀ c, p.getLast? = some c → c ∉ white ver) : ∃ cfg,
    w.dump ver p = .ok cfg ∧ ∀ given blanks rest, given.empty = true → (∀ t ∈ blanks, BlankLine t) →
      cfg.loadTyped ver H given (blanks ++ lineOf ver p :: rest) = some (.ok (reopened w)) := by
  obtain ⟨cfg, hd, hn, hl⟩ := dumped ver H w hw p hp
  refine ⟨cfg, hd, fun e blanks rest he hb => ?_⟩
  have hs : (lineOf ver p).strip = lineOf ver p := by
    rw [strip_line, stripWith_id]
    · intro c hc; simpa using h1 c hc
    · intro c hc; simpa using h2 c hc
  have hne : ¬ BlankLine (lineOf ver p) := by
    unfold BlankLine
    rw [hs, empty_line]
    cases p with
    | nil => exact absurd rfl hp
    | cons _ _ => simp
  unfold AnyCfg.loadTyped
  rw [if_pos hn, ask_line e he blanks _ rest hb hne, hs]
  simp only
  rw [encode_line]
  simp only
  rw [hl]

/-- C158: while only empty and white lines are typed the prompt asks again. -/
theorem C158_waits (ver : PyVer) (H : Hashes) (w : AnyWallet) (hw : Private H w) (p : Bytes) (hp : p ≠ []) : ∃ cfg,
    w.dump ver p = .ok cfg ∧ ∀ given blanks, given.empty = true → (∀ t ∈ blanks, BlankLine t) →
      cfg.loadTyped ver H given blanks = none := by
  obtain ⟨cfg, hd, hn, -⟩ := dumped ver H w hw p hp
  refine ⟨cfg, hd, fun e blanks he hb => ?_⟩
  obtain ⟨q, hq, e'⟩ := ask_blank e he blanks [] hb
  rw [List.append_nil] at e'
  unfold AnyCfg.loadTyped
  rw [if_pos hn, e', ask, if_pos hq]

theorem passKey_head (c : UInt8) (l : Bytes) : (passKey (c :: l)).head? = some c := by
  simp [passKey]

/-- C158 is false of a passphrase that begins with a white byte: whatever lines are typed, the prompt goes on asking, or
refuses, or decrypts with another key. -/
theorem C158_white_false (ver : PyVer) (H : Hashes) (w : AnyWallet) (hw : Private H w) (c : UInt8) (l : Bytes)
    (hc : c ∈ white ver) : ∃ cfg, w.dump ver (c :: l) = .ok cfg ∧ ∀ given typed, given.empty = true →
      (∀ t ∈ typed, IsLine ver t) → cfg.loadTyped ver H given typed = none ∨
        cfg.loadTyped ver H given typed = some (.error .valueError) ∨
        ∃ b, passKey b ≠ passKey (c :: l) ∧ cfg.loadTyped ver H given typed = some (cfg.load ver H b []) := by
  obtain ⟨cfg, hd, hn, -⟩ := dumped ver H w hw (c :: l) (by simp)
  refine ⟨cfg, hd, fun e typed he ht => ?_⟩
  unfold AnyCfg.loadTyped
  rw [if_pos hn]
  cases ha : ask e typed with
  | none => exact .inl rfl
  | some r =>
    simp only
    cases hr : r.encode with
    | error x =>
      refine .inr (.inl ?_)
      cases r with
      | bytes b => cases hr
      | text s =>
        simp only [Phrase.encode, latin1Encode] at hr
        split at hr
        · cases hr
        · injection hr with hr
          rw [← hr]
    | ok b =>
      refine .inr (.inr ⟨b, ?_, rfl⟩)
      obtain ⟨c', l', rfl, hc'⟩ := ask_head ht he ha hr
      intro h
      have := congrArg List.head? h
      rw [passKey_head, passKey_head] at this
      injection this with this
      exact hc' (this ▸ hc)

/-- C158: exactly the passphrases whose first byte is not white can be typed, with some line (not always their own). -/
theorem C158_typable (ver : PyVer) (H : Hashes) (w : AnyWallet) (hw : Private H w) (c : UInt8) (l : Bytes)
    (hc : c ∉ white ver) : ∃ cfg, w.dump ver (c :: l) = .ok cfg ∧ ∃ line, IsLine ver line ∧
      cfg.loadTyped ver H (.bytes []) [line] = some (.ok (reopened w)) := by
  obtain ⟨cfg, hd, hn, hl⟩ := dumped ver H w hw (c :: l) (by simp)
  refine ⟨cfg, hd, lineOf ver (passKey (c :: l) ++ [0]), lineOf_isLine _ _, ?_⟩
  have hs : (lineOf ver (passKey (c :: l) ++ [0])).strip = lineOf ver (passKey (c :: l) ++ [0]) := by
    rw [strip_line, stripWith_id]
    · intro x hx
      rw [List.head?_append, passKey_head] at hx
      simp only [Option.some_or] at hx
      injection hx with hx
      rw [← hx]
      simpa using hc
    · intro x hx
      simp only [List.getLast?_append, List.getLast?_singleton, Option.some_or] at hx
      injection hx with hx
      rw [← hx]
      cases ver <;> decide
  have hne : ¬ BlankLine (lineOf ver (passKey (c :: l) ++ [0])) := by
    unfold BlankLine
    rw [hs, empty_line]
    simp
  have hk : passKey (passKey (c :: l) ++ [0]) = passKey (c :: l) := by
    have hlen : (passKey (c :: l)).length = 16 := by
      unfold passKey
      simp only [List.length_append, List.length_take, List.length_replicate]
      omega
    generalize passKey (c :: l) = k at hlen
    unfold passKey
    simp only [List.take_left' hlen, hlen, Nat.sub_self, List.replicate_zero, List.append_nil]
  unfold AnyCfg.loadTyped
  rw [if_pos hn, show [lineOf ver (passKey (c :: l) ++ [0])] = [] ++ lineOf ver (passKey (c :: l) ++ [0]) :: [] from rfl,
    ask_line _ rfl _ _ _ (by simp) hne, hs]
  simp only
  rw [encode_line]
  simp only
  rw [load_key ver H cfg _ (c :: l) (by simp) (by simp) hk, hl]

/-- A text with no white character at its ends -/
def Trimmed (s : List Char) : Prop :=
  (∀ c, s.head? = some c → spaceChar c = false) ∧ (∀ c, s.getLast? = some c → spaceChar c = false)

theorem typed_text {H : Hashes} {cfg : AnyCfg} (hn : cfg.needsPhrase = true) {s : List Char} (hs : Trimmed s) (h0 : s ≠ []) :
    cfg.loadTyped .py3 H (.text []) [.text s] = match latin1Encode s with
      | .error e => some (.error e)
      | .ok b => some (cfg.load .py3 H b []) := by
  have h1 : (Phrase.text s).strip = .text s := by
    simp only [Phrase.strip]
    rw [stripWith_id _ _ hs.1 hs.2]
  have h2 : ¬ BlankLine (.text s) := by
    unfold BlankLine
    rw [h1]
    cases s with
    | nil => exact absurd rfl h0
    | cons _ _ => simp [Phrase.empty]
  unfold AnyCfg.loadTyped
  rw [if_pos hn, show [Phrase.text s] = [] ++ Phrase.text s :: [] from rfl, ask_line _ rfl _ _ _ (by simp) h2, h1]
  simp only [Phrase.encode]
  cases latin1Encode s <;> rfl

/-- C158 is false of other alphabets, Python 3: a text with a character from U+0100 on is refused at the prompt, so that a
wallet saved with its bytes (in UTF-8, say) cannot be opened by typing it. -/
theorem C158_alphabet_false (H : Hashes) (w : AnyWallet) (hw : Private H w) (p : Bytes) (hp : p ≠ []) (s : List Char)
    (hs : Trimmed s) (c : Char) (hc : c ∈ s) (h : 256 ≤ c.toNat) : ∃ cfg, w.dump .py3 p = .ok cfg ∧
      cfg.loadTyped .py3 H (.text []) [.text s] = some (.error .valueError) := by
  obtain ⟨cfg, hd, hn, -⟩ := dumped .py3 H w hw p hp
  refine ⟨cfg, hd, ?_⟩
  rw [typed_text hn hs (by rintro rfl; simp at hc)]
  unfold latin1Encode
  rw [if_neg]
  rw [List.all_eq_true]
  intro h'
  have := h' c hc
  simp at this
  omega

/-- C158 is false of accents, Python 3: a wallet saved with the bytes of a text in UTF-8 is decrypted with another key when
the text is typed, if a letter that is not of ASCII (nor `Ã`) stands among the first 16. -/
theorem C158_utf8_false (H : Hashes) (w : AnyWallet) (hw : Private H w) (a r : List Char) (c : Char) (ha : ∀ x ∈ a, x.toNat < 128)
    (hl : a.length < 16) (hc : 128 ≤ c.toNat) (hc' : c.toNat < 256) (h195 : c.toNat ≠ 195) (hr : ∀ x ∈ r, x.toNat < 256)
    (hs : Trimmed (a ++ c :: r)) : ∃ cfg, w.dump .py3 (utf8 (a ++ c :: r)) = .ok cfg ∧ ∃ b,
      passKey b ≠ passKey (utf8 (a ++ c :: r)) ∧
      cfg.loadTyped .py3 H (.text []) [.text (a ++ c :: r)] = some (cfg.load .py3 H b []) := by
  have hu : ∀ a : List Char, (∀ x ∈ a, x.toNat < 128) → ∀ t, utf8 (a ++ t) = a.map (fun x => UInt8.ofNat x.toNat) ++ utf8 t := by
    intro a ha t
    induction a with
    | nil => rfl
    | cons x a ih =>
      rw [List.cons_append, utf8, if_pos (ha x (by simp)), ih (fun y hy => ha y (by simp [hy]))]
      rfl
  have hU : utf8 (a ++ c :: r) = a.map (fun x => UInt8.ofNat x.toNat) ++
      (UInt8.ofNat (192 + c.toNat / 64) :: UInt8.ofNat (128 + c.toNat % 64) :: utf8 r) := by
    rw [hu a ha, utf8, if_neg (by omega)]
    rfl
  obtain ⟨cfg, hd, hn, -⟩ := dumped .py3 H w hw (utf8 (a ++ c :: r)) (by rw [hU]; simp)
  refine ⟨cfg, hd, (a ++ c :: r).map (fun x => UInt8.ofNat x.toNat), ?_, ?_⟩
  · intro h
    have h1 := ((passKey_eq_iff _ _).1 h) a.length hl
    rw [hU] at h1
    simp only [List.map_append, List.map_cons, List.getD_eq_getElem?_getD] at h1
    rw [List.getElem?_append_right (by simp), List.getElem?_append_right (by simp)] at h1
    simp only [List.length_map, Nat.sub_self, List.getElem?_cons_zero, Option.getD_some] at h1
    have h2 := congrArg UInt8.toNat h1
    rw [UInt8.toNat_ofNat', UInt8.toNat_ofNat'] at h2
    generalize c.toNat = x at *
    have h3 : x / 64 = 2 ∨ x / 64 = 3 := by omega
    rw [Nat.mod_eq_of_lt (by omega), Nat.mod_eq_of_lt (by omega)] at h2
    omega
  · rw [typed_text hn hs (by simp)]
    unfold latin1Encode
    rw [if_pos]
    rw [List.all_eq_true]
    intro x hx
    simp only [List.mem_append, List.mem_cons] at hx
    rw [decide_eq_true_eq]
    rcases hx with hx | rfl | hx
    · have := ha x hx
      omega
    · exact hc'
    · exact hr x hx

/-- C158: a text given to `loadFrom` stands for the bytes with the numbers of its characters; with a character from U+0100
on it is refused if a passphrase is needed. -/
theorem C158_given (ver : PyVer) (H : Hashes) (cfg : AnyCfg) (s : List Char) (h0 : s ≠ []) (typed : List Phrase) :
    ((∀ c ∈ s, c.toNat < 256) → cfg.loadTyped ver H (.text s) typed =
      cfg.loadTyped ver H (.bytes (s.map (fun c => UInt8.ofNat c.toNat))) typed) ∧
    ((∃ c ∈ s, 256 ≤ c.toNat) → cfg.needsPhrase = true → cfg.loadTyped ver H (.text s) typed = some (.error .valueError)) := by
  have he : ∀ p : Phrase, p.empty = false → ask p typed = some p := by
    intro p hp
    cases typed <;> rw [ask, if_neg (by simp [hp])]
  have h1 : (Phrase.text s).empty = false := by
    cases s with
    | nil => exact absurd rfl h0
    | cons _ _ => rfl
  constructor
  · intro h
    have h2 : (Phrase.bytes (s.map (fun c => UInt8.ofNat c.toNat))).empty = false := by
      cases s with
      | nil => exact absurd rfl h0
      | cons _ _ => rfl
    unfold AnyCfg.loadTyped
    rw [he _ h1, he _ h2]
    simp only [Phrase.encode, latin1Encode]
    rw [if_pos (List.all_eq_true.2 (fun c hc => decide_eq_true (h c hc)))]
  · rintro ⟨c, hc, h⟩ hn
    unfold AnyCfg.loadTyped
    rw [if_pos hn, he _ h1]
    simp only [Phrase.encode, latin1Encode]
    rw [if_neg]
    rw [List.all_eq_true]
    intro h'
    have := h' c hc
    simp at this
    omega

/-- C158: no wallet is saved under a text: `saveTo` raises before it touches the file.  (The empty text is no passphrase, and
a wallet without a private key has nothing to encrypt.) -/
theorem C158_saved (ver : PyVer) (H : Hashes) (json : AnyCfg → Bytes) (w : AnyWallet) (s : List Char) (h0 : s ≠ [])
    (old : Option Bytes) (cuts : List Nat) :
    (Private H w → w.dumpWith ver (.text s) = .error .valueError ∧ saveToWith ver json w (.text s) old cuts = [old]) ∧
    saveToWith ver json w (.text []) old cuts = saveTo ver json w [] old cuts ∧
    ∀ p, saveToWith ver json w (.bytes p) old cuts = saveTo ver json w p old cuts := by
  refine ⟨fun hw => ?_, rfl, fun p => rfl⟩
  have key : w.dumpWith ver (.text s) = .error .valueError := by
    unfold AnyWallet.dumpWith
    simp only [if_neg h0]
    cases w with
    | default a =>
      obtain ⟨cfg, h1, -⟩ := C45_private_partial ver H a hw.1 hw.2 []
      have hd : (AnyWallet.default a).dump ver [] = .ok (.default cfg) := by
        unfold AnyWallet.dump
        simp only
        rw [h1, ok_bind]
      rw [hd, ok_bind]
      unfold Address.dump at h1
      cases hk : a.privKey with
      | none => exact absurd hk hw.2
      | some k =>
        rw [hk] at h1
        obtain ⟨⟨t, e⟩, hs, h1⟩ := bind_ok_iff.1 h1
        injection h1 with h1
        subst h1
        rfl
    | hd w =>
      obtain ⟨hm, k, hk⟩ := hw
      obtain ⟨cfg, h1, -⟩ := C46_private_partial ver w k hm hk []
      have hd : (AnyWallet.hd w).dump ver [] = .ok (.hd cfg) := by
        unfold AnyWallet.dump
        simp only
        rw [h1, ok_bind]
      rw [hd, ok_bind]
      unfold HDWallet.dump at h1
      rw [hk] at h1
      simp only at h1
      obtain ⟨x, -, h1⟩ := bind_ok_iff.1 h1
      obtain ⟨⟨t, e⟩, hs, h1⟩ := bind_ok_iff.1 h1
      injection h1 with h1
      subst h1
      rfl
  refine ⟨key, ?_⟩
  unfold saveToWith
  rw [key]

/-! ### White lines and white ends -/

theorem space_text (c : Char) : spaceChar c = true ↔ c.toNat ∈ whiteText := by
  unfold spaceChar whiteText
  generalize c.toNat = n
  simp only [decide_eq_true_eq, List.mem_cons, List.not_mem_nil, or_false]
  omega

theorem phrase_dropWhile_pad {α : Type} (s : α → Bool) (a l : List α) (ha : ∀ c ∈ a, s c = true) :
    (a ++ l).dropWhile s = l.dropWhile s := by
  induction a with
  | nil => rfl
  | cons x a ih =>
    rw [List.cons_append, List.dropWhile_cons, ha x (by simp)]
    exact ih (fun c hc => ha c (by simp [hc]))

theorem phrase_dropWhile_end {α : Type} (s : α → Bool) (l b : List α) (h1 : ∃ c ∈ l, s c = false) :
    (l ++ b).dropWhile s = l.dropWhile s ++ b := by
  induction l with
  | nil => obtain ⟨c, h, -⟩ := h1; cases h
  | cons x l ih =>
    rw [List.cons_append, List.dropWhile_cons, List.dropWhile_cons]
    by_cases hx : s x = true
    · rw [if_pos hx, if_pos hx]
      refine ih ?_
      obtain ⟨c, h, hc⟩ := h1
      rcases List.mem_cons.1 h with rfl | h
      · rw [hx] at hc; cases hc
      · exact ⟨c, h, hc⟩
    · rw [if_neg hx, if_neg hx]; rfl

theorem stripWith_pad {α : Type} (s : α → Bool) (a l b : List α) (ha : ∀ c ∈ a, s c = true) (hb : ∀ c ∈ b, s c = true)
    (hl : ∃ c ∈ l, s c = false) : stripWith s (a ++ l ++ b) = stripWith s l := by
  unfold stripWith
  rw [List.append_assoc, phrase_dropWhile_pad s a _ ha, phrase_dropWhile_end s l b hl, List.reverse_append,
    phrase_dropWhile_pad s b.reverse _ (by simpa using hb)]

theorem phrase_dropWhile_all {α : Type} (s : α → Bool) (l : List α) : l.dropWhile s = [] ↔ ∀ c ∈ l, s c = true := by
  induction l with
  | nil => simp
  | cons x l ih =>
    rw [List.dropWhile_cons]
    by_cases hx : s x = true
    · rw [if_pos hx, ih]
      simp [hx]
    · rw [if_neg hx]
      simp [hx]

theorem stripWith_nil {α : Type} (s : α → Bool) (l : List α) : stripWith s l = [] ↔ ∀ c ∈ l, s c = true := by
  constructor
  · intro h c hc
    by_contra hn
    have hn : s c = false := by simpa using hn
    have h1 : c ∈ l.dropWhile s := by
      obtain ⟨a, b, rfl⟩ := List.append_of_mem hc
      clear h hc
      induction a with
      | nil => rw [List.nil_append, List.dropWhile_cons, hn]; simp
      | cons x a ih =>
        rw [List.cons_append, List.dropWhile_cons]
        split
        · exact ih
        · simp
    unfold stripWith at h
    have h2 := List.reverse_eq_nil_iff.1 h
    have := (phrase_dropWhile_all _ _).1 h2 c (by simpa using h1)
    rw [hn] at this
    cases this
  · intro h
    unfold stripWith
    rw [(phrase_dropWhile_all _ _).2 h]
    rfl

/-- C158: the lines after which the prompt asks again are those of white characters only. -/
theorem C158_blank : (∀ s, BlankLine (.text s) ↔ ∀ c ∈ s, c.toNat ∈ whiteText) ∧
    ∀ b, BlankLine (.bytes b) ↔ ∀ c ∈ b, c ∈ white .py2 := by
  constructor
  · intro s
    unfold BlankLine Phrase.strip Phrase.empty
    rw [List.isEmpty_iff, stripWith_nil]
    simp only [space_text]
  · intro b
    unfold BlankLine Phrase.strip Phrase.empty
    rw [List.isEmpty_iff, stripWith_nil]
    simp only [white_py2, decide_eq_true_eq]

/-- C158: white characters before and after the passphrase do no harm, in Python 3 any of Unicode. -/
theorem C158_padded (H : Hashes) (w : AnyWallet) (hw : Private H w) (p : Bytes) (hp : p ≠ [])
    (h1 : ∀ c, p.head? = some c → c ∉ white .py3) (h2 : ∀ c, p.getLast? = some c → c ∉ white .py3) : ∃ cfg,
    w.dump .py3 p = .ok cfg ∧ ∀ given a b rest, given.empty = true → (∀ c ∈ a, c.toNat ∈ whiteText) →
      (∀ c ∈ b, c.toNat ∈ whiteText) →
      cfg.loadTyped .py3 H given (.text (a ++ p.map (fun c => Char.ofNat c.toNat) ++ b) :: rest) = some (.ok (reopened w)) := by
  obtain ⟨cfg, hd, hn, hl⟩ := dumped .py3 H w hw p hp
  refine ⟨cfg, hd, fun e a b rest he ha hb => ?_⟩
  have hs : (lineOf .py3 p).strip = lineOf .py3 p := by
    rw [strip_line, stripWith_id]
    · intro c hc; simpa using h1 c hc
    · intro c hc; simpa using h2 c hc
  have hs' : (Phrase.text (a ++ p.map (fun c => Char.ofNat c.toNat) ++ b)).strip = lineOf .py3 p := by
    rw [← hs]
    unfold Phrase.strip lineOf
    simp only
    congr 1
    refine stripWith_pad _ _ _ _ (fun c hc => (space_text c).2 (ha c hc)) (fun c hc => (space_text c).2 (hb c hc)) ?_
    cases p with
    | nil => exact absurd rfl hp
    | cons x l =>
      refine ⟨Char.ofNat x.toNat, by simp, ?_⟩
      rw [white_py3]
      simpa using h1 x rfl
  have hne : ¬ BlankLine (Phrase.text (a ++ p.map (fun c => Char.ofNat c.toNat) ++ b)) := by
    unfold BlankLine
    rw [hs', empty_line]
    cases p with
    | nil => exact absurd rfl hp
    | cons _ _ => simp
  unfold AnyCfg.loadTyped
  have := ask_line e he [] _ rest (by simp) hne
  rw [List.nil_append] at this
  rw [if_pos hn, this, hs']
  simp only
  rw [encode_line]
  simp only
  rw [hl]

/-- C158: a wallet saved without a passphrase is opened without one: nothing is asked, and what is given or typed is not
looked at.  So is the wallet of a public key. -/
theorem C158_open (ver : PyVer) (H : Hashes) :
    (∀ w, Private H w → ∃ cfg, w.dump ver [] = .ok cfg ∧ ∀ given typed,
      cfg.loadTyped ver H given typed = some (.ok (reopened w))) ∧
    ∀ (w : AnyWallet) p cfg, ¬ (match w with | .default a => a.privKey ≠ none | .hd w => ∃ k, w.key = .prv k) → w.dump ver p = .ok cfg →
      ∀ given typed, cfg.loadTyped ver H given typed = some (cfg.load ver H [] []) := by
  have hr : ∀ t, AnyCfg.needsPhrase.reaches t false = false := by
    intro t
    unfold AnyCfg.needsPhrase.reaches
    cases unhexlify t with
    | error _ => rfl
    | ok s => simp
  constructor
  · intro w hw
    cases w with
    | default a =>
      obtain ⟨cfg, h1, h2⟩ := C45_private_partial ver H a hw.1 hw.2 []
      refine ⟨.default cfg, ?_, fun given typed => ?_⟩
      · unfold AnyWallet.dump
        simp only
        rw [h1, ok_bind]
      · have hn : (AnyCfg.default cfg).needsPhrase = false := by
          unfold Address.dump at h1
          cases hk : a.privKey with
          | none => exact absurd hk hw.2
          | some k =>
            rw [hk] at h1
            obtain ⟨⟨t, e⟩, hs, h1⟩ := bind_ok_iff.1 h1
            injection h1 with h1
            subst h1
            unfold dumpSecret at hs
            obtain ⟨-, -, hs⟩ := bind_ok_iff.1 hs
            simp only [ne_eq, not_true_eq_false, if_false] at hs
            injection hs with hs
            injection hs with h3 h4
            subst h4
            exact hr _
        unfold AnyCfg.loadTyped
        rw [hn, if_neg (by simp)]
        unfold AnyCfg.load
        simp only
        rw [h2, ok_bind]
        rfl
    | hd w =>
      obtain ⟨hm, k, hk⟩ := hw
      obtain ⟨cfg, h1, h2⟩ := C46_private_partial ver w k hm hk []
      refine ⟨.hd cfg, ?_, fun given typed => ?_⟩
      · unfold AnyWallet.dump
        simp only
        rw [h1, ok_bind]
      · have hn : (AnyCfg.hd cfg).needsPhrase = false := by
          unfold HDWallet.dump at h1
          rw [hk] at h1
          simp only at h1
          obtain ⟨x, -, h1⟩ := bind_ok_iff.1 h1
          obtain ⟨⟨t, e⟩, hs, h1⟩ := bind_ok_iff.1 h1
          injection h1 with h1
          subst h1
          unfold dumpSecret at hs
          obtain ⟨-, -, hs⟩ := bind_ok_iff.1 hs
          simp only [ne_eq, not_true_eq_false, if_false] at hs
          injection hs with hs
          injection hs with h3 h4
          subst h4
          exact hr _
        unfold AnyCfg.loadTyped
        rw [hn, if_neg (by simp)]
        unfold AnyCfg.load
        simp only
        rw [h2, ok_bind]
        rfl
  · intro w p cfg hw hd given typed
    have hn : cfg.needsPhrase = false := by
      have h0 : ∀ e, AnyCfg.needsPhrase.reaches [] e = false := by intro e; cases e <;> rfl
      cases w with
      | default a =>
        unfold AnyWallet.dump at hd
        simp only at hd
        obtain ⟨c, h1, hd⟩ := bind_ok_iff.1 hd
        injection hd with hd
        subst hd
        have hk : a.privKey = none := by simpa using hw
        unfold Address.dump at h1
        rw [hk] at h1
        injection h1 with h1
        subst h1
        exact h0 false
      | hd w =>
        unfold AnyWallet.dump at hd
        simp only at hd
        obtain ⟨c, h1, hd⟩ := bind_ok_iff.1 hd
        injection hd with hd
        subst hd
        unfold HDWallet.dump at h1
        cases hk : w.key with
        | prv k => exact absurd ⟨k, hk⟩ hw
        | pub q =>
          rw [hk] at h1
          simp only at h1
          obtain ⟨x, -, h1⟩ := bind_ok_iff.1 h1
          injection h1 with h1
          subst h1
          exact h0 false
    unfold AnyCfg.loadTyped
    rw [hn, if_neg (by simp)]

/-! ### Cases -/

/-- White ends for `C158_padded`, one of them not in latin-1, and a wallet of a public key for `C158_open` -/
example : (∀ c ∈ [' ', Char.ofNat 12288], c.toNat ∈ whiteText) ∧
    ¬ (match AnyWallet.hd ⟨.pub .inf, [], 5, false, 0, [], 0⟩ with
      | .default a => a.privKey ≠ none | .hd w => ∃ k, w.key = .prv k) ∧
    ∃ cfg, (AnyWallet.default ⟨[4], none, 5, false, true, []⟩).dump .py3 [1] = .ok cfg := by
  refine ⟨by decide, by simp, _, rfl⟩

/-- A wallet of each kind with its private key -/
example : (∃ a, Private Hashes.toy (.default a)) ∧
    Private Hashes.toy (.hd ⟨.prv 7, List.replicate 32 1, 5, false, 0, List.replicate 4 0, 0⟩) := by
  obtain ⟨a, h1, h2, -⟩ := private_example Hashes.toy true
  exact ⟨⟨a, h1, h2⟩, ⟨.prv 7, List.replicate 32 1, some 5, 0, false, none, by decide, by decide +kernel⟩, 7, rfl⟩

/-- Passphrases for the theorems: an ordinary one, one that begins with a blank, and one that ends with the byte 160, which
is white in Python 3 only. -/
example : (∀ c, (ascii "correct horse").head? = some c → c ∉ white .py3) ∧
    (∀ c, (ascii "correct horse").getLast? = some c → c ∉ white .py3) ∧ ascii " secret" = 32 :: ascii "secret" ∧
    (32 : UInt8) ∈ white .py2 ∧ (160 : UInt8) ∈ white .py3 ∧ (160 : UInt8) ∉ white .py2 := by
  refine ⟨?_, ?_, by decide, by decide, by decide, by decide⟩
  · intro c h
    have : c = 99 := by
      have h' : (ascii "correct horse").head? = some 99 := by decide +kernel
      rw [h'] at h
      exact (Option.some.inj h).symm
    subst this
    decide
  · intro c h
    have : c = 101 := by
      have h' : (ascii "correct horse").getLast? = some 101 := by decide +kernel
      rw [h'] at h
      exact (Option.some.inj h).symm
    subst this
    decide

/-- A blank line and an empty one; a typed line comes without its blanks. -/
example : BlankLine (.text [' ', '\t']) ∧ BlankLine (.bytes []) ∧
    ask (.text []) [.text [' '], .text [' ', 'p', 'w', ' '], .text ['x']] = some (.text ['p', 'w']) := by
  refine ⟨?_, ?_, ?_⟩ <;> first | decide +kernel | (unfold BlankLine; decide +kernel)

/-- Texts for the theorems on alphabets: `naïve` and `пароль` -/
example : Trimmed ("na".toList ++ 'ï' :: "ve".toList) ∧ 128 ≤ 'ï'.toNat ∧ 'ï'.toNat < 256 ∧ 'ï'.toNat ≠ 195 ∧
    utf8 "naïve".toList = [110, 97, 195, 175, 118, 101] ∧ Trimmed "пароль".toList ∧ 256 ≤ 'п'.toNat := by
  refine ⟨⟨?_, ?_⟩, by decide, by decide, by decide, by decide +kernel, ⟨?_, ?_⟩, by decide⟩ <;>
  · intro c h
    obtain rfl := Option.some.inj h
    decide

end NBC.Props
