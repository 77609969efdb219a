import Verif.Proofs.WalletAes
import Verif.Proofs.AesStreams

/-!
# The blocks of an encrypted wallet secret
-/

namespace NBC.Wallet
open NBC Aes Props NBC.Spec NBC.Spec.Aes

theorem xorB_length16 {a b : Bytes} (ha : a.length = 16) (hb : b.length = 16) : (xorB a b).length = 16 := by
  rw [← xorBytes_eq]
  unfold xorBytes
  rw [List.length_zipWith, ha, hb]
  rfl

theorem xorB_right_inj {a b c : Bytes} (ha : a.length = 16) (hb : b.length = 16) (hc : c.length = 16)
    (h : xorB a c = xorB b c) : a = b := by
  rw [← xorBytes_eq, ← xorBytes_eq] at h
  rw [← xorBytes_cancel a c (by omega), h, xorBytes_cancel b c (by omega)]

/-- A block function as it is used: it keeps the length and is one to one. -/
structure Perm16 (E : Bytes → Bytes) : Prop where
  len : ∀ b : Bytes, b.length = 16 → (E b).length = 16
  inj : ∀ a b : Bytes, a.length = 16 → b.length = 16 → E a = E b → a = b

theorem cbcBlocks_len {E : Bytes → Bytes} (hE : Perm16 E) : ∀ (ds : List Bytes) (iv : Bytes), iv.length = 16 →
    (∀ d ∈ ds, d.length = 16) → ∀ b ∈ cbcBlocks E iv ds, b.length = 16
  | [], _, _, _ => fun b hb => by cases hb
  | d :: ds, iv, hi, hd => by
    have h1 := hE.len _ (xorB_length16 (hd d (by simp)) hi)
    intro b hb
    rw [cbcBlocks] at hb
    rcases List.mem_cons.1 hb with rfl | hb
    · exact h1
    · exact cbcBlocks_len hE ds _ h1 (fun x hx => hd x (by simp [hx])) b hb

theorem cbcBlocks_take {E : Bytes → Bytes} (hE : Perm16 E) : ∀ (j : Nat) (ds es : List Bytes) (iv : Bytes), iv.length = 16 →
    (∀ d ∈ ds, d.length = 16) → (∀ d ∈ es, d.length = 16) →
    ((cbcBlocks E iv ds).take j = (cbcBlocks E iv es).take j ↔ ds.take j = es.take j)
  | 0, _, _, _, _, _, _ => by simp
  | j + 1, [], [], _, _, _, _ => by simp
  | j + 1, d :: ds, [], _, _, _, _ => by simp [cbcBlocks]
  | j + 1, [], e :: es, _, _, _, _ => by simp [cbcBlocks]
  | j + 1, d :: ds, e :: es, iv, hi, hd, he => by
    have h1 := hd d (by simp)
    have h2 := he e (by simp)
    have ih := fun iv hi => cbcBlocks_take hE j ds es iv hi (fun x hx => hd x (by simp [hx])) (fun x hx => he x (by simp [hx]))
    simp only [cbcBlocks, List.take_succ_cons, List.cons.injEq]
    constructor
    · rintro ⟨h, h'⟩
      have := xorB_right_inj h1 h2 hi (hE.inj _ _ (xorB_length16 h1 hi) (xorB_length16 h2 hi) h)
      subst this
      exact ⟨rfl, (ih _ (hE.len _ (xorB_length16 h1 hi))).1 h'⟩
    · rintro ⟨rfl, h⟩
      exact ⟨rfl, (ih _ (hE.len _ (xorB_length16 h1 hi))).2 h⟩

theorem flatten_take : ∀ (j : Nat) (bs : List Bytes), (∀ b ∈ bs, b.length = 16) → bs.flatten.take (16 * j) = (bs.take j).flatten
  | 0, _, _ => by simp
  | j + 1, [], _ => by simp
  | j + 1, b :: bs, h => by
    have hb : b.length = 16 := h b (by simp)
    rw [List.flatten_cons, List.take_succ_cons, List.flatten_cons, List.take_append, hb,
      List.take_of_length_le (by omega), show 16 * (j + 1) - 16 = 16 * j by omega,
      flatten_take j bs (fun x hx => h x (by simp [hx]))]

theorem flatten_inj {as bs : List Bytes} (ha : ∀ b ∈ as, b.length = 16) (hb : ∀ b ∈ bs, b.length = 16)
    (h : as.flatten = bs.flatten) : as = bs := by
  obtain ⟨h1, h2⟩ := slices16_flatten as ha
  obtain ⟨h3, h4⟩ := slices16_flatten bs hb
  have : as.length = bs.length := by rw [h] at h2; omega
  rw [← h1, ← h3, h, this]

/-- Encryption in terms of the block function. -/
theorem encrypt_blocks (ver : PyVer) (p : Bytes) : ∃ E, Perm16 E ∧ ∀ s, aesEncrypt ver s p =
    .ok (cbcBlocks E (List.replicate 16 0) (slices16 (padded s) ((s.length + 15) / 16))).flatten := by
  obtain ⟨A, hA⟩ := Aes.init_ok (ver := ver) (key := passKey p) (Or.inl (passKey_length p))
  obtain ⟨D, hb⟩ := blk_spec hA.1
  refine ⟨_, ⟨hb.elen, fun a b ha hb' h => by rw [← hb.de a ha, h, hb.de b hb']⟩, fun s => ?_⟩
  obtain ⟨-, hall, -⟩ := slices16_spec _ _ (padded_length s)
  obtain ⟨t, ht⟩ := cbc_blocks hb (slices16 (padded s) ((s.length + 15) / 16)) ⟨A, List.replicate 16 0⟩ ⟨rfl, by simp⟩ hall
  have hi : CBC.init ver (passKey p) none = .ok ⟨A, List.replicate 16 0⟩ := by
    unfold CBC.init
    rw [hA.1]
    rfl
  rw [aesEncrypt_eq, hi, ok_bind, ht, ok_bind]

/-- Two results agree in their first blocks exactly where the texts do. -/
theorem encrypt_prefix (ver : PyVer) (p s s' c c' : Bytes) (h : aesEncrypt ver s p = .ok c) (h' : aesEncrypt ver s' p = .ok c')
    (j : Nat) : c.take (16 * j) = c'.take (16 * j) ↔ (padded s).take (16 * j) = (padded s').take (16 * j) := by
  obtain ⟨E, hE, he⟩ := encrypt_blocks ver p
  rw [he] at h h'
  injection h with h
  injection h' with h'
  obtain ⟨-, a1, a2⟩ := slices16_spec _ _ (padded_length s)
  obtain ⟨-, b1, b2⟩ := slices16_spec _ _ (padded_length s')
  have hc := cbcBlocks_len hE _ (List.replicate 16 0) (by simp) a1
  have hc' := cbcBlocks_len hE _ (List.replicate 16 0) (by simp) b1
  have ht := cbcBlocks_take hE j _ _ (List.replicate 16 0) (by simp) a1 b1
  subst h
  subst h'
  conv_rhs => rw [← a2, ← b2]
  rw [flatten_take j _ hc, flatten_take j _ hc', flatten_take j _ a1, flatten_take j _ b1]
  have sub : ∀ {l : List Bytes}, (∀ b ∈ l, b.length = 16) → ∀ b ∈ l.take j, b.length = 16 :=
    fun h b hb => h b (List.mem_of_mem_take hb)
  constructor
  · intro h
    rw [ht.1 (flatten_inj (sub hc) (sub hc') h)]
  · intro h
    rw [ht.2 (flatten_inj (sub a1) (sub b1) h)]

end NBC.Wallet
