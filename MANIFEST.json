{
 "claims": [
  {
   "property": "C01",
   "status": "proved",
   "theorems": [
    "NBC.Props.C01_base58_roundtrip"
   ],
   "note": "all byte strings"
  },
  {
   "property": "C02",
   "status": "proved",
   "theorems": [
    "NBC.Props.C02_base58_canonical",
    "NBC.Props.C02_base58_decode_injective"
   ],
   "note": ""
  },
  {
   "property": "C03",
   "status": "proved",
   "theorems": [
    "NBC.Props.C03_base58check",
    "NBC.Props.C03_checksum_enforced"
   ],
   "note": ""
  },
  {
   "property": "C04",
   "status": "proved",
   "theorems": [
    "NBC.Props.C04_wif_roundtrip",
    "NBC.Props.C04_wif_first_character"
   ],
   "note": "prefix 0x80, any checksum function with 32-byte output"
  },
  {
   "property": "C05",
   "status": "proved",
   "theorems": [
    "NBC.Props.C05_wif_sound"
   ],
   "note": ""
  },
  {
   "property": "C06",
   "status": "proved",
   "theorems": [
    "NBC.Props.C06_address_layout",
    "NBC.Props.C06_address_injective",
    "NBC.Props.C06_publickey_address_layout"
   ],
   "note": ""
  },
  {
   "property": "C07",
   "status": "proved",
   "theorems": [
    "NBC.Props.C07_number_to_string",
    "NBC.Props.C07_roundtrips",
    "NBC.Props.C07_orderlen"
   ],
   "note": ""
  },
  {
   "property": "C08",
   "status": "proved",
   "theorems": [
    "NBC.Props.C08_inverse_mod"
   ],
   "note": ""
  },
  {
   "property": "C09",
   "status": "proved",
   "theorems": [
    "NBC.Props.C09_jacobi"
   ],
   "note": ""
  },
  {
   "property": "C10",
   "status": "proved",
   "theorems": [
    "NBC.Props.C10_square_root"
   ],
   "note": ""
  },
  {
   "property": "C11",
   "status": "proved",
   "theorems": [
    "NBC.Props.C11_is_prime"
   ],
   "note": "for every value of the float logarithm that selects the number of rounds"
  },
  {
   "property": "C12",
   "status": "proved",
   "theorems": [
    "NBC.Props.C12_next_prime"
   ],
   "note": ""
  },
  {
   "property": "C13",
   "status": "proved",
   "theorems": [
    "NBC.Props.C13_factorization"
   ],
   "note": ""
  },
  {
   "property": "C14",
   "status": "proved",
   "theorems": [
    "NBC.Props.C14_gcd",
    "NBC.Props.C14_lcm",
    "NBC.Props.C14_empty"
   ],
   "note": "lcm of nothing is a TypeError, and only then (C14_empty)."
  },
  {
   "property": "C15",
   "status": "partial",
   "theorems": [
    "NBC.Props.C15_order_mod_false",
    "NBC.Props.C15_order_mod_partial"
   ],
   "note": "false for x = 1 (mod m), x != 1 (answer 2) and for x < 0 (AssertionError); proved in all other cases"
  },
  {
   "property": "C16",
   "status": "proved",
   "theorems": [
    "NBC.Props.C16_add",
    "NBC.Props.C16_double"
   ],
   "note": "Mathlib's group law on WeierstrassCurve.Affine.Point over ZMod p is the specification"
  },
  {
   "property": "C17",
   "status": "proved",
   "theorems": [
    "NBC.Props.C17_mul",
    "NBC.Props.C17_mul_sound"
   ],
   "note": "odd order hypothesis for totality; C17_mul_sound needs none"
  },
  {
   "property": "C18",
   "status": "proved",
   "theorems": [
    "NBC.Props.C18_constructor",
    "NBC.Props.C18_closed"
   ],
   "note": ""
  },
  {
   "property": "C19",
   "status": "partial",
   "theorems": [
    "NBC.Props.C19_declared_order_false",
    "NBC.Props.C19_declared_order_partial"
   ],
   "note": "false: the assertion reduces order modulo itself first and never fires; witness on the curve of X9.62"
  },
  {
   "property": "C20",
   "status": "proved",
   "theorems": [
    "NBC.Props.C20_secp256k1",
    "NBC.Props.C20_generator_order"
   ],
   "note": ""
  },
  {
   "property": "C21",
   "status": "partial",
   "theorems": [
    "NBC.Props.C21_sign_verify_partial",
    "NBC.Props.C21_sign_verify_small_field_partial",
    "NBC.Props.C21_sign_total_partial",
    "NBC.Props.C21_sign_verify_false"
   ],
   "note": "Proved up to r < n: sign returns the x coordinate of the nonce point unreduced, so for a coordinate in [n, p) the signature is rejected by verifies (C21_sign_verify_false gives such a nonce on secp256k1)."
  },
  {
   "property": "C22",
   "status": "proved",
   "theorems": [
    "NBC.Props.C22_out_of_range"
   ],
   "note": ""
  },
  {
   "property": "C23",
   "status": "proved",
   "theorems": [
    "NBC.Props.C23_equation"
   ],
   "note": ""
  },
  {
   "property": "C24",
   "status": "partial",
   "theorems": [
    "NBC.Props.C24_sign_verify_partial",
    "NBC.Props.C24_sign_total_partial",
    "NBC.Props.C24_key_exists",
    "NBC.Props.C24_sign_verify_false"
   ],
   "note": "false when the nonce point has x >= n (r is not reduced). C24_sign_verify_partial is exact: with an uncompressed key verify answers r < n; with a compressed key r < n and the square one of y, p - y is below n"
  },
  {
   "property": "C25",
   "status": "partial",
   "theorems": [
    "NBC.Props.C25_outcomes_partial",
    "NBC.Props.C25_decodable_partial",
    "NBC.Props.C25_verify_false"
   ],
   "note": "false: seven exceptions escape, with witnesses; the complete list of outcomes is proved, and for decodable signatures the exact condition of the TypeError"
  },
  {
   "property": "C26",
   "status": "partial",
   "theorems": [
    "NBC.Props.C26_decompress_compress_partial",
    "NBC.Props.C26_compress_decompress",
    "NBC.Props.C26_decompress_compress_false"
   ],
   "note": "compress after decompress in full; decompress after compress exact for all points: it fails precisely when the one of y and p - y that is a square is >= n (witness y = 6)"
  },
  {
   "property": "C27",
   "status": "proved",
   "theorems": [
    "NBC.Props.C27_decompress_sound"
   ],
   "note": ""
  },
  {
   "property": "C28",
   "status": "partial",
   "theorems": [
    "NBC.Props.C28_agreement_partial",
    "NBC.Props.C28_uncompressed_partial",
    "NBC.Props.C28_compressed_false"
   ],
   "note": "agreement for every accepted pair of public keys and WIF strings; false for compressed keys that decompress_public_key refuses"
  },
  {
   "property": "C29",
   "status": "proved",
   "theorems": [
    "NBC.Props.C29_der_signature"
   ],
   "note": ""
  },
  {
   "property": "C30",
   "status": "proved",
   "theorems": [
    "NBC.Props.C30_length",
    "NBC.Props.C30_number",
    "NBC.Props.C30_octet_string",
    "NBC.Props.C30_bitstring",
    "NBC.Props.C30_sequence",
    "NBC.Props.C30_constructed",
    "NBC.Props.C30_object",
    "NBC.Props.C30_other_tag",
    "NBC.Props.C30_parts",
    "NBC.Props.C30_integer_form"
   ],
   "note": ""
  },
  {
   "property": "C31",
   "status": "partial",
   "theorems": [
    "NBC.Props.C31_integer_partial",
    "NBC.Props.C31_integer_false",
    "NBC.Props.C31_negative"
   ],
   "note": "False from 2^1015 on: encode_integer writes its length in one byte; below that bound proved (C31_integer_partial), and no larger integer survives (C31_integer_false)."
  },
  {
   "property": "C32",
   "status": "proved",
   "theorems": [
    "NBC.Props.C32_range",
    "NBC.Props.C32_first",
    "NBC.Props.C32_onto",
    "NBC.Props.C32_small"
   ],
   "note": ""
  },
  {
   "property": "C33",
   "status": "partial",
   "theorems": [
    "NBC.Props.C33_range",
    "NBC.Props.C33_reproducible",
    "NBC.Props.C33_first_candidate_partial",
    "NBC.Props.C33_divisions_partial",
    "NBC.Props.C33_division_false"
   ],
   "note": "range and reproducibility in full; Python 2 and 3 agree on the first candidate (rolen is a float in Python 3), and on all of them under C33_divisions_partial's condition on the sizes"
  },
  {
   "property": "C34",
   "status": "partial",
   "theorems": [
    "NBC.Props.C34_low_s_partial",
    "NBC.Props.C34_low_s_false"
   ],
   "note": "false: order / 2 is a float; bound with relative error 2^-53 proved"
  },
  {
   "property": "C35",
   "status": "proved",
   "theorems": [
    "NBC.Props.C35_signing_key",
    "NBC.Props.C35_verifying_key",
    "NBC.Props.C35_verifying_key_string",
    "NBC.Props.C35_foreign_private_key",
    "NBC.Props.C35_registered"
   ],
   "note": ""
  },
  {
   "property": "C36",
   "status": "partial",
   "theorems": [
    "NBC.Props.C36_decrypt_encrypt_partial",
    "NBC.Props.C36_python3_false",
    "NBC.Props.C36_refused"
   ],
   "note": "32-byte keys fail in Python 3 (C36_python3_false): KC / 2 is a float; everything else is covered, with both orders of composition"
  },
  {
   "property": "C37",
   "status": "partial",
   "theorems": [
    "NBC.Props.C37_fips197_partial",
    "NBC.Props.C37_python3_false",
    "NBC.Props.C37_inverse"
   ],
   "note": "refinement to an independent FIPS-197 specification, tables included; 32-byte keys only in Python 2 as for C36 (C37_python3_false: no such key works in Python 3)"
  },
  {
   "property": "C38",
   "status": "proved",
   "theorems": [
    "NBC.Props.C38_ecb",
    "NBC.Props.C38_cbc",
    "NBC.Props.C38_cfb",
    "NBC.Props.C38_ofb",
    "NBC.Props.C38_ctr",
    "NBC.Props.C38_objects"
   ],
   "note": ""
  },
  {
   "property": "C39",
   "status": "proved",
   "theorems": [
    "NBC.Props.C39_ofb",
    "NBC.Props.C39_ctr",
    "NBC.Props.C39_cfb"
   ],
   "note": ""
  },
  {
   "property": "C40",
   "status": "proved",
   "theorems": [
    "NBC.Props.C40_increment",
    "NBC.Props.C40_init",
    "NBC.Props.C40_blocks",
    "NBC.Props.C40_distinct"
   ],
   "note": ""
  },
  {
   "property": "C41",
   "status": "partial",
   "theorems": [
    "NBC.Props.C41_ecb_partial",
    "NBC.Props.C41_cbc_partial",
    "NBC.Props.C41_cfb_partial",
    "NBC.Props.C41_ofb_partial",
    "NBC.Props.C41_ctr_partial",
    "NBC.Props.C41_empty_chunk_false",
    "NBC.Props.C41_python3_false"
   ],
   "note": "Python 2 with non-empty chunks; an empty chunk finishes the feeder (C41_empty_chunk_false) and in Python 3 no chunk can be fed (C41_python3_false)"
  },
  {
   "property": "C42",
   "status": "partial",
   "theorems": [
    "NBC.Props.C42_strip_append_partial",
    "NBC.Props.C42_rejected_partial",
    "NBC.Props.C42_malformed_false",
    "NBC.Props.C42_python3_false"
   ],
   "note": "round trip in Python 2 and the exact set of rejected strings; rejection of malformed padding is false (C42_malformed_false), and Python 3 cannot strip at all (C42_python3_false)"
  },
  {
   "property": "C43",
   "status": "partial",
   "theorems": [
    "NBC.Props.C43_roundtrip_partial",
    "NBC.Props.C43_empty_false",
    "NBC.Props.C43_limit"
   ],
   "note": "C43_roundtrip_partial: secrets of 1 to 240 bytes, every non-empty passphrase. C43_limit: longer ones are encrypted but then refused. C43_empty_false: an empty secret is not loaded back."
  },
  {
   "property": "C44",
   "status": "partial",
   "theorems": [
    "NBC.Props.C44_same_start_false",
    "NBC.Props.C44_keys_partial",
    "NBC.Props.C44_wallet_false"
   ],
   "note": "False as stated: C44_same_start_false and C44_wallet_false show that any two passphrases with the same first 16 bytes are interchangeable. C44_keys_partial: when the zero-padded 16-byte keys differ the AES keys used differ. That a wrong key yields a detected error is not a theorem about AES and is not claimed."
  },
  {
   "property": "C45",
   "status": "partial",
   "theorems": [
    "NBC.Props.C45_private_partial",
    "NBC.Props.C45_prompt",
    "NBC.Props.C45_watch_partial",
    "NBC.Props.C45_watch_compressed_false"
   ],
   "note": "C45_private_partial (every constructed address with a private key is loaded back identical), C45_prompt (the asked-for passphrase), C45_watch_partial (uncompressed watch-only). C45_watch_compressed_false: a compressed watch-only address comes back uncompressed, with another address."
  },
  {
   "property": "C46",
   "status": "partial",
   "theorems": [
    "NBC.Props.C46_private_partial",
    "NBC.Props.C46_same_partial",
    "NBC.Props.C46_public_partial",
    "NBC.Props.C46_public_false"
   ],
   "note": "C46_private_partial and C46_same_partial: private HD wallets come back identical. C46_public_partial describes public ones exactly; C46_public_false: the point is negated when the one of y and p - y that is a square is odd."
  },
  {
   "property": "C47",
   "status": "proved",
   "theorems": [
    "NBC.Props.C47_derivation",
    "NBC.Props.C47_every_public"
   ],
   "note": ""
  },
  {
   "property": "C48",
   "status": "partial",
   "theorems": [
    "NBC.Props.C48_deterministic_partial",
    "NBC.Props.C48_vcn_false"
   ],
   "note": "C48_deterministic_partial: everything but the chain number is determined by wallet and index. C48_vcn_false: the chain number is drawn at random and changes the address."
  },
  {
   "property": "C49",
   "status": "proved",
   "theorems": [
    "NBC.Props.C49_hardened",
    "NBC.Props.C49_refused",
    "NBC.Props.C49_paths",
    "NBC.Props.C49_derived"
   ],
   "note": ""
  },
  {
   "property": "C50",
   "status": "partial",
   "theorems": [
    "NBC.Props.C50_reimport_false",
    "NBC.Props.C50_private_partial",
    "NBC.Props.C50_public_partial",
    "NBC.Props.C50_last_false"
   ],
   "note": "C50_reimport_false: from_extended_key always raises, at its first and again at its last statement. C50_private_partial, C50_public_partial: the part between reads exactly the exported fields (public: with the sign error of C46). Past the first statement the import of well-formed fields stops with NameError (C50_last_false)."
  },
  {
   "property": "C51",
   "status": "proved",
   "theorems": [
    "NBC.Props.C51_public",
    "NBC.Props.C51_private",
    "NBC.Props.C51_fields",
    "NBC.Props.C51_secrecy",
    "NBC.Props.C51_paths"
   ],
   "note": ""
  },
  {
   "property": "C52",
   "status": "partial",
   "theorems": [
    "NBC.Props.C52_compress",
    "NBC.Props.C52_decompress",
    "NBC.Props.C52_sign_verify_same",
    "NBC.Props.C52_sign_verify_partial",
    "NBC.Props.C52_watch_partial",
    "NBC.Props.C52_watch_false"
   ],
   "note": "C52_compress, C52_decompress and C52_sign_verify_same cover wallets with a private key; C52_sign_verify_partial has the defect of C24. Watch-only wallets: C52_watch_partial when x, y and the square one of y and p - y are below the group order; C52_watch_false: some other keys cannot be compressed or decompressed."
  },
  {
   "property": "C53",
   "status": "proved",
   "theorems": [
    "NBC.Props.C53_generate",
    "NBC.Props.C53_only_entropy"
   ],
   "note": ""
  },
  {
   "property": "C54",
   "status": "partial",
   "theorems": [
    "NBC.Props.C54_dump_fails_partial",
    "NBC.Props.C54_crash_false",
    "NBC.Props.C54_complete_partial"
   ],
   "note": "C54_crash_false: the file passes through the empty content. C54_dump_fails_partial: a failing dump leaves the file alone. C54_complete_partial: an uninterrupted save of a private wallet can be loaded."
  },
  {
   "property": "C55",
   "status": "partial",
   "theorems": [
    "NBC.Props.C55_recombine_partial",
    "NBC.Props.C55_split_total",
    "NBC.Props.C55_python3_false",
    "NBC.Props.C55_compressed_false"
   ],
   "note": "Python 2: the keys of a split combine, in any order, to the uncompressed WIF of the secret mod n, for every count and draw. False in Python 3 (xrange) and for compressed keys (the compression flag is lost)."
  },
  {
   "property": "C56",
   "status": "proved",
   "theorems": [
    "NBC.Props.C56_combined_point",
    "NBC.Props.C56_two_keys"
   ],
   "note": "Proved for every list of keys, and for two keys on the points the code computes."
  },
  {
   "property": "C57",
   "status": "partial",
   "theorems": [
    "NBC.Props.C57_recover_partial",
    "NBC.Props.C57_all_groups",
    "NBC.Props.C57_any_groups_false",
    "NBC.Props.C57_repeated_false",
    "NBC.Props.C57_python3_false"
   ],
   "note": "Characterised in Python 2 for every choice of groups, order of keys and dictionary order: the key comes back exactly when the groups contain `required` cyclically consecutive ones. False for arbitrary choices of `required` groups (two-of-four, groups 0 and 2, every key and draw), when a key-set repeats a key, and in Python 3."
  },
  {
   "property": "C58",
   "status": "proved",
   "theorems": [
    "NBC.Props.C58_prefix"
   ],
   "note": "Proved for every result of partial_split_private_key."
  },
  {
   "property": "C59",
   "status": "partial",
   "theorems": [
    "NBC.Props.C59_varint_partial",
    "NBC.Props.C59_varint_false"
   ],
   "note": "Proved for n < 2^32-1. False above: FtVarInteger.parse tests 0xfd twice (format.py:251), so every 9-byte form is read as 255 (C59_varint_false, all n in [2^32-1, 2^64))."
  },
  {
   "property": "C60",
   "status": "proved",
   "theorems": [
    "NBC.Props.C60_number",
    "NBC.Props.C60_range",
    "NBC.Props.C60_float",
    "NBC.Props.C60_other"
   ],
   "note": "All eight formats, both byte orders, integers and (finite, dyadic) floats."
  },
  {
   "property": "C61",
   "status": "proved",
   "theorems": [
    "NBC.Props.C61_address",
    "NBC.Props.C61_dotted_quad",
    "NBC.Props.C61_any_text"
   ],
   "note": "All 2^128 addresses, and every text that can be written."
  },
  {
   "property": "C62",
   "status": "partial",
   "theorems": [
    "NBC.Props.C62_objects_partial",
    "NBC.Props.C62_validated_partial",
    "NBC.Props.C62_validated_false",
    "NBC.Props.C62_exact_partial"
   ],
   "note": "C62_exact_partial says exactly which variable integers, strings and addresses can be written. Numbers, fixed bytes, the optional flag, arrays of such and objects with such fields always can. False in general: negative or huge variable integers, '1:2', non Latin-1 text."
  },
  {
   "property": "C63",
   "status": "proved",
   "theorems": [
    "NBC.Props.C63_message",
    "NBC.Props.C63_settled",
    "NBC.Props.C63_first_msg_len"
   ],
   "note": "Every registered message type against the relational wire specification (Spec/Wire). Payload below 4 GiB, four-byte magic."
  },
  {
   "property": "C64",
   "status": "proved",
   "theorems": [
    "NBC.Props.C64_magic",
    "NBC.Props.C64_checksum",
    "NBC.Props.C64_unknown",
    "NBC.Props.C64_accepted"
   ],
   "note": "Every byte string of at least 20 bytes; shorter ones raise struct.error, C64_accepted covers all lengths."
  },
  {
   "property": "C65",
   "status": "partial",
   "theorems": [
    "NBC.Props.C65_truncated_partial",
    "NBC.Props.C65_truncated_false",
    "NBC.Props.C65_all_commands"
   ],
   "note": "Proved for ten message types, false for the other eleven (witness for each), C65_all_commands shows the lists are exhaustive."
  },
  {
   "property": "C66",
   "status": "partial",
   "theorems": [
    "NBC.Props.C66_elements_partial",
    "NBC.Props.C66_work_false",
    "NBC.Props.C66_elements_false"
   ],
   "note": "Proved for the returned message of 19 types with bound |data|+96, at all nesting depths. getblocks/getheaders have no bound (C66_elements_false); a merkleblock that is refused may build any number of hashes first (C66_work_false)."
  },
  {
   "property": "C67",
   "status": "proved",
   "theorems": [
    "NBC.Props.C67_stream",
    "NBC.Props.C67_segmentation",
    "NBC.Props.C67_trace"
   ],
   "note": "every splitting of the stream gives the same frames; the frames and the buffer together are the bytes received"
  },
  {
   "property": "C68",
   "status": "proved",
   "theorems": [
    "NBC.Props.C68_total",
    "NBC.Props.C68_all",
    "NBC.Props.C68_refused"
   ],
   "note": "handle_read never raises and terminates; every complete frame is handled once, and a refused frame leaves only the counters changed"
  },
  {
   "property": "C69",
   "status": "proved",
   "theorems": [
    "NBC.Props.C69_order",
    "NBC.Props.C69_later",
    "NBC.Props.C69_send",
    "NBC.Props.C69_write",
    "NBC.Props.C69_writable",
    "NBC.Props.C69_drain"
   ],
   "note": "in every history of the node, for every connection"
  },
  {
   "property": "C70",
   "status": "proved",
   "theorems": [
    "NBC.Props.C70_totals",
    "NBC.Props.C70_connection"
   ],
   "note": "in every history of the node"
  },
  {
   "property": "C71",
   "status": "partial",
   "theorems": [
    "NBC.Props.C71_bound_partial",
    "NBC.Props.C71_verack",
    "NBC.Props.C71_bound_false"
   ],
   "note": "false: command_address tests '> MAX_ADDRESSES' before adding, so 2501 addresses are reachable (C71_bound_false); the bound 2501 is proved for every history. C71_verack: command_version_ack adds an address only below 2500."
  },
  {
   "property": "C72",
   "status": "partial",
   "theorems": [
    "NBC.Props.C72_numbers",
    "NBC.Props.C72_reply_partial",
    "NBC.Props.C72_reply_false"
   ],
   "note": "Python 2 only: in Python 3 sorted() is called with a positional comparison function and getaddr is never answered (C72_reply_false)"
  },
  {
   "property": "C73",
   "status": "proved",
   "theorems": [
    "NBC.Props.C73_pong",
    "NBC.Props.C73_read"
   ],
   "note": "every state, and through handle_read for a whole frame"
  },
  {
   "property": "C74",
   "status": "partial",
   "theorems": [
    "NBC.Props.C74_reconnect_false",
    "NBC.Props.C74_recorded_partial"
   ],
   "note": "false: bans are recorded under the ip but looked up under (ip, port), so the ban list refuses nobody after any history (C74_reconnect_false); what holds is that the peer is closed and recorded"
  },
  {
   "property": "C75",
   "status": "proved",
   "theorems": [
    "NBC.Props.C75_range",
    "NBC.Props.C75_punish",
    "NBC.Props.C75_heartbeat"
   ],
   "note": "range in every history; exact effect of one punishment and of one heartbeat"
  },
  {
   "property": "C76",
   "status": "partial",
   "theorems": [
    "NBC.Props.C76_version_partial",
    "NBC.Props.C76_closed_false",
    "NBC.Props.C76_plurality"
   ],
   "note": "plurality for every state; and for every well-formed version message through the frame handler, while the node listens. Missing: a node whose listener has been closed (asyncore hides its method connected), C76_closed_false"
  },
  {
   "property": "C77",
   "status": "proved",
   "theorems": [
    "NBC.Props.C77_duplicate",
    "NBC.Props.C77_limit",
    "NBC.Props.C77_distinct",
    "NBC.Props.C77_exceeded",
    "NBC.Props.C77_unbounded"
   ],
   "note": "own address: while the listener is open. handle_accept and add_any_peer are not bound by max_peers (C77_exceeded)"
  },
  {
   "property": "C78",
   "status": "partial",
   "theorems": [
    "NBC.Props.C78_poll",
    "NBC.Props.C78_idle",
    "NBC.Props.C78_spacing",
    "NBC.Props.C78_silent_partial",
    "NBC.Props.C78_silent_false"
   ],
   "note": "false for a connection that has never received anything (C78_silent_false); exact effect of one poll and the spacing of pings over histories are proved"
  },
  {
   "property": "C79",
   "status": "proved",
   "theorems": [
    "NBC.Props.C79_make_get",
    "NBC.Props.C79_get_make",
    "NBC.Props.C79_refused"
   ],
   "note": "Proved for all integers: get_version inverts make_version wherever it accepts, make_version inverts get_version everywhere, and arguments outside [0, 99] are refused."
  },
  {
   "property": "C80",
   "status": "partial",
   "theorems": [
    "NBC.Props.C80_root_spec",
    "NBC.Props.C80_empty",
    "NBC.Props.C80_same_length_partial",
    "NBC.Props.C80_binds_partial",
    "NBC.Props.C80_binds_false"
   ],
   "note": "False as stated: repeating the last transactions can keep the root (CVE-2012-2459), proved for every hash and any three transactions. Proved: the loop computes the specified tree; equal roots bind the serialised transactions for lists of equal length, and for lists of any lengths when no transaction is 64 bytes long and no level ends in two equal nodes, given no collision among the strings actually hashed."
  },
  {
   "property": "C81",
   "status": "partial",
   "theorems": [
    "NBC.Props.C81_target_partial",
    "NBC.Props.C81_verify_partial",
    "NBC.Props.C81_python3_false",
    "NBC.Props.C81_verify_false"
   ],
   "note": "Python 2: get_target is the 32-byte compact target for exponents 3 to 32 and comparing strings compares numbers. False in Python 3 (str.decode), and verify_target is unusable with every coin in the repository because none defines proof_of_work."
  },
  {
   "property": "C82",
   "status": "partial",
   "theorems": [
    "NBC.Props.C82_header_partial",
    "NBC.Props.C82_header_false"
   ],
   "note": "Proved for integer timestamps and transaction counts in [0, 2^64). False for float timestamps (accepted by BlockHeader, refused by struct) and for other counts (accepted but not serialisable)."
  },
  {
   "property": "C83",
   "status": "proved",
   "theorems": [
    "NBC.Props.C83_phi"
   ],
   "note": ""
  },
  {
   "property": "C84",
   "status": "proved",
   "theorems": [
    "NBC.Props.C84_carmichael"
   ],
   "note": ""
  },
  {
   "property": "C85",
   "status": "proved",
   "theorems": [
    "NBC.Props.C85_largest_factor"
   ],
   "note": ""
  },
  {
   "property": "C86",
   "status": "partial",
   "theorems": [
    "NBC.Props.C86_point_equality_false",
    "NBC.Props.C86_point_equality_partial",
    "NBC.Props.C86_reduced_partial"
   ],
   "note": "false: 27*(13,7) on y^2=x^3+x+1 mod 23 has y=-7; exact for reduced coordinates"
  },
  {
   "property": "C87",
   "status": "proved",
   "theorems": [
    "NBC.Props.C87_overshoot",
    "NBC.Props.C87_trytryagain",
    "NBC.Props.C87_first",
    "NBC.Props.C87_prng",
    "NBC.Props.C87_prng_stream"
   ],
   "note": ""
  },
  {
   "property": "C88",
   "status": "proved",
   "theorems": [
    "NBC.Props.C88_negated_s",
    "NBC.Props.C88_canonize_verifies"
   ],
   "note": ""
  },
  {
   "property": "C89",
   "status": "proved",
   "theorems": [
    "NBC.Props.C89_curves"
   ],
   "note": "The order of NIST521p is certified with Pocklington steps down to a 361-bit prime and eight elliptic curve (Goldwasser-Kilian) steps below it, all checked by the kernel."
  },
  {
   "property": "C90",
   "status": "proved",
   "theorems": [
    "NBC.Props.C90_ecb",
    "NBC.Props.C90_cbc",
    "NBC.Props.C90_cfb",
    "NBC.Props.C90_ofb",
    "NBC.Props.C90_ctr"
   ],
   "note": "encryption in each mode equals the mode of SP 800-38A over the FIPS-197 block function"
  },
  {
   "property": "C91",
   "status": "partial",
   "theorems": [
    "NBC.Props.C91_get_address_false",
    "NBC.Props.C91_python3_false",
    "NBC.Props.C91_python2_false"
   ],
   "note": "False: get_address raises for all arguments (the call of publickey_to_address lacks vcn; in Python 3 the check of the first byte already fails)."
  },
  {
   "property": "C92",
   "status": "proved",
   "theorems": [
    "NBC.Props.C92_format",
    "NBC.Props.C92_rewrapped",
    "NBC.Props.C92_bytes",
    "NBC.Props.C92_signing_key",
    "NBC.Props.C92_verifying_key",
    "NBC.Props.C92_labels"
   ],
   "note": "PEM text as bytes; base64 modelled character by character (binascii semantics: characters outside the alphabet are skipped). Independent spec: RFC 4648 by bits. C92_labels: what the first and last lines say."
  },
  {
   "property": "C93",
   "status": "proved",
   "theorems": [
    "NBC.Props.C93_int_to_string",
    "NBC.Props.C93_string_to_int",
    "NBC.Props.C93_digest_integer"
   ],
   "note": ""
  },
  {
   "property": "C94",
   "status": "proved",
   "theorems": [
    "NBC.Props.C94_fixed_width",
    "NBC.Props.C94_fixed_width_strict"
   ],
   "note": "Also the canonical forms through C95_codecs."
  },
  {
   "property": "C95",
   "status": "partial",
   "theorems": [
    "NBC.Props.C95_codecs",
    "NBC.Props.C95_sign_verify_partial",
    "NBC.Props.C95_sign_value",
    "NBC.Props.C95_sign_verify_false",
    "NBC.Props.C95_long_digest"
   ],
   "note": "Partial: as in C23, r is not reduced modulo the order, so for a nonce point with x >= order verification raises BadSignatureError. C95_sign_verify_false gives, for every message, such a key and nonce on secp256k1."
  },
  {
   "property": "C96",
   "status": "partial",
   "theorems": [
    "NBC.Props.C96_rfc6979_partial",
    "NBC.Props.C96_divisions_partial",
    "NBC.Props.C96_deterministic",
    "NBC.Props.C96_verify_partial",
    "NBC.Props.C96_default_hash_false"
   ],
   "note": "The nonce equals RFC 6979's under Python 2 division for any number of rounds; under Python 3 division it can differ from the second candidate on, when the candidate block has exactly the length of the order (C33_division_false); C96_divisions_partial names the library curves and hashes where it cannot. C96_verify_partial is exact. sign_digest_deterministic without hashfunc raises TypeError."
  },
  {
   "property": "C97",
   "status": "partial",
   "theorems": [
    "NBC.Props.C97_signing_key",
    "NBC.Props.C97_verifying_key_partial",
    "NBC.Props.C97_verifying_key_false"
   ],
   "note": "False for verifying keys: from_pem and from_der take no hash function and always give SHA-1. True for SHA-1, and for signing keys when the caller names the hash again."
  },
  {
   "property": "C98",
   "status": "partial",
   "theorems": [
    "NBC.Props.C98_loop",
    "NBC.Props.C98_listening_partial",
    "NBC.Props.C98_listening_false"
   ],
   "note": "false of a node bound to a name or to all interfaces: the version message cannot be built, handle_accept raises and asyncore closes the listener; proved for nodes bound to an ip. The loop can still end because select is given a closed socket: C149"
  },
  {
   "property": "C99",
   "status": "partial",
   "theorems": [
    "NBC.Props.C99_addPeer_partial",
    "NBC.Props.C99_addPeer_false"
   ],
   "note": "false for addresses with a name; proved for addresses with an ip, with the exact state afterwards"
  },
  {
   "property": "C100",
   "status": "partial",
   "theorems": [
    "NBC.Props.C100_first_partial",
    "NBC.Props.C100_first_false"
   ],
   "note": "false for addresses with a name; proved when seeds, accepted and added addresses have ips"
  },
  {
   "property": "C101",
   "status": "proved",
   "theorems": [
    "NBC.Props.C101_items",
    "NBC.Props.C101_spacing",
    "NBC.Props.C101_connections",
    "NBC.Props.C101_asked"
   ],
   "note": "the number of known addresses is that after connecting, which may remove some"
  },
  {
   "property": "C102",
   "status": "partial",
   "theorems": [
    "NBC.Props.C102_buffer_partial",
    "NBC.Props.C102_buffer_false"
   ],
   "note": "only the trivial bound 24 + 2**32 holds; any smaller one is false"
  },
  {
   "property": "C103",
   "status": "partial",
   "theorems": [
    "NBC.Props.C103_banned_false"
   ],
   "note": "false: punish_peer is not called anywhere in the code"
  },
  {
   "property": "C104",
   "status": "partial",
   "theorems": [
    "NBC.Props.C104_tried_partial",
    "NBC.Props.C104_tried_false"
   ],
   "note": "false when the listener's own address is in the book, which peers can bring about; proved otherwise, for rounds without the turn of a seed"
  },
  {
   "property": "C105",
   "status": "proved",
   "theorems": [
    "NBC.Props.C105_description"
   ],
   "note": "magic, checksum and command of accepted frames are those of C64"
  },
  {
   "property": "C106",
   "status": "partial",
   "theorems": [
    "NBC.Props.C106_one_missing_partial",
    "NBC.Props.C106_two_missing",
    "NBC.Props.C106_excluded_false"
   ],
   "note": "one key, the sum of the pieces seen, is excluded when the missing piece is a random one; with two or more missing nothing is excluded; no split exists in Python 3"
  },
  {
   "property": "C107",
   "status": "partial",
   "theorems": [
    "NBC.Props.C107_pieces_partial",
    "NBC.Props.C107_zero_false"
   ],
   "note": "the computed piece may be 0; exact condition proved"
  },
  {
   "property": "C108",
   "status": "partial",
   "theorems": [
    "NBC.Props.C108_order",
    "NBC.Props.C108_roundtrip_partial",
    "NBC.Props.C108_padding_false",
    "NBC.Props.C108_python3_false",
    "NBC.Props.C108_groups_partial",
    "NBC.Props.C108_gap_false"
   ],
   "note": "exact condition: number of keys 3 or 4 modulo 5 and indices 0..m but one; Python 3 writes no text"
  },
  {
   "property": "C109",
   "status": "partial",
   "theorems": [
    "NBC.Props.C109_capitals",
    "NBC.Props.C109_letters",
    "NBC.Props.C109_plus",
    "NBC.Props.C109_minus",
    "NBC.Props.C109_short_partial",
    "NBC.Props.C109_short_false"
   ],
   "note": "'::' alone is refused, a dotted quad at the end raises ValueError, ':1' is taken for '::1'. C109_capitals: letters may be capitals; C109_letters: no other characters than digits, separators and what int() lets pass A plus before the groups of a dotted quad is passed over (C109_plus); a group below zero is refused wherever it stands (C109_minus)."
  },
  {
   "property": "C110",
   "status": "partial",
   "theorems": [
    "NBC.Props.C110_hex_to_bin_partial",
    "NBC.Props.C110_inverse_partial",
    "NBC.Props.C110_python3_false"
   ],
   "note": "Python 2; in Python 3 both functions raise AttributeError"
  },
  {
   "property": "C111",
   "status": "partial",
   "theorems": [
    "NBC.Props.C111_alert_partial",
    "NBC.Props.C111_again_false"
   ],
   "note": "a payload that breaks off raises only at the first read; later reads see a half-filled cache"
  },
  {
   "property": "C112",
   "status": "partial",
   "theorems": [
    "NBC.Props.C112_equal_partial",
    "NBC.Props.C112_same_transaction_false"
   ],
   "note": "comparing the index is a NameError (otehr)"
  },
  {
   "property": "C113",
   "status": "proved",
   "theorems": [
    "NBC.Props.C113_hash"
   ],
   "note": ""
  },
  {
   "property": "C114",
   "status": "proved",
   "theorems": [
    "NBC.Props.C114_block_header"
   ],
   "note": ""
  },
  {
   "property": "C115",
   "status": "partial",
   "theorems": [
    "NBC.Props.C115_once",
    "NBC.Props.C115_pop_partial",
    "NBC.Props.C115_two_users_false"
   ],
   "note": "two users of one seeder: the second pop raises IndexError"
  },
  {
   "property": "C116",
   "status": "proved",
   "theorems": [
    "NBC.Props.C116_guess",
    "NBC.Props.C116_returns"
   ],
   "note": "the time the main thread needs between two waits is not counted"
  },
  {
   "property": "C117",
   "status": "partial",
   "theorems": [
    "NBC.Props.C117_path_partial",
    "NBC.Props.C117_list_false"
   ],
   "note": "with a list on the path always None (ininstance is a NameError that is caught)"
  },
  {
   "property": "C118",
   "status": "partial",
   "theorems": [
    "NBC.Props.C118_portmap_partial",
    "NBC.Props.C118_others_partial",
    "NBC.Props.C118_platform_false",
    "NBC.Props.C118_taken_false",
    "NBC.Props.C118_full_false"
   ],
   "note": "NameError except on darwin; a taken port ends with the wrong mapping deleted; port 65536"
  },
  {
   "property": "C119",
   "status": "proved",
   "theorems": [
    "NBC.Props.C119_genesis"
   ],
   "note": "SHA-256 is concrete here (Model/Sha)"
  },
  {
   "property": "C120",
   "status": "partial",
   "theorems": [
    "NBC.Props.C120_alert_partial",
    "NBC.Props.C120_answers_partial",
    "NBC.Props.C120_raises_false"
   ],
   "note": "exact for signatures that decode; others raise; C120_answers_partial says when verify answers True, False or raises"
  },
  {
   "property": "C121",
   "status": "partial",
   "theorems": [
    "NBC.Props.C121_get_coin_partial",
    "NBC.Props.C121_both_false"
   ],
   "note": "with a matching symbol any name will do"
  },
  {
   "property": "C122",
   "status": "partial",
   "theorems": [
    "NBC.Props.C122_private",
    "NBC.Props.C122_public",
    "NBC.Props.C122_master_partial",
    "NBC.Props.C122_master_false",
    "NBC.Props.C122_path"
   ],
   "note": "C122_private and C122_public: child is CKDpriv/CKDpub of Spec/Bip32, errors exactly where BIP 32 has no child; C122_path for paths. Partial: from_master_seed reduces I_L modulo n instead of refusing I_L >= n (C122_master_false)."
  },
  {
   "property": "C123",
   "status": "proved",
   "theorems": [
    "NBC.Props.C123_delivered",
    "NBC.Props.C123_message"
   ],
   "note": "Two nodes with arbitrary histories; the network is the hypothesis that one connection's received bytes are a prefix of (equal to) the other's sent bytes. Owners may send any registered message at any time."
  },
  {
   "property": "C124",
   "status": "proved",
   "theorems": [
    "NBC.Props.C124_handshake"
   ],
   "note": "Quiescent form: whenever both send buffers are empty and all bytes have arrived, both connections open. Addresses with ips (as in C100); owners do not send version messages of their own."
  },
  {
   "property": "C125",
   "status": "proved",
   "theorems": [
    "NBC.Props.C125_mixed_refused",
    "NBC.Props.C125_others_ignored",
    "NBC.Props.C125_result"
   ],
   "note": ""
  },
  {
   "property": "C126",
   "status": "proved",
   "theorems": [
    "NBC.Props.C126_load"
   ],
   "note": ""
  },
  {
   "property": "C127",
   "status": "proved",
   "theorems": [
    "NBC.Props.C127_encoding",
    "NBC.Props.C127_sign"
   ],
   "note": ""
  },
  {
   "property": "C128",
   "status": "partial",
   "theorems": [
    "NBC.Props.C128_strict_partial",
    "NBC.Props.C128_texts_false",
    "NBC.Props.C128_negated_false"
   ],
   "note": "False: ecc's sigdecode_der ignores everything behind the sequence, so every accepted signature has infinitely many accepted texts (C128_texts_false), and (r, n-s) is accepted next to (r, s) even in the strict form (C128_negated_false). What holds: strict texts are determined by their numbers (C128_strict_partial)."
  },
  {
   "property": "C129",
   "status": "partial",
   "theorems": [
    "NBC.Props.C129_tx_partial",
    "NBC.Props.C129_compact_false",
    "NBC.Props.C129_texts_false",
    "NBC.Props.C129_header"
   ],
   "note": "Headers in full. For transactions: the exact condition (all size texts are those this code writes) under which the hash is that of the bytes received, and two negations: Bitcoin's own encoding of a script of 65535 bytes, and two texts of one transaction."
  },
  {
   "property": "C130",
   "status": "proved",
   "theorems": [
    "NBC.Props.C130_tx",
    "NBC.Props.C130_block",
    "NBC.Props.C130_headers",
    "NBC.Props.C130_bitcoin"
   ],
   "note": "The language is Spec/Reading with the size texts readSize: one byte except 0xfd and 0xfe (so 0xff is 255), or 0xfd and two bytes, or 0xfe and four, shortest or not. C130_bitcoin is about sizes below 2^32."
  },
  {
   "property": "C131",
   "status": "partial",
   "theorems": [
    "NBC.Props.C131_received_partial",
    "NBC.Props.C131_hashes_false",
    "NBC.Props.C131_frames",
    "NBC.Props.C131_own",
    "NBC.Props.C131_alert_partial",
    "NBC.Props.C131_alert_false",
    "NBC.Props.C131_send_false"
   ],
   "note": "C131_frames: a BaseNode is left in the same state by every frame at every level. C131_received_partial and C131_alert_partial also compare what is raised, for any handler. Only whether a text can be made is modelled; print_ to the log file (which may raise for characters its encoding lacks, or when the disk is full) is not."
  },
  {
   "property": "C132",
   "status": "proved",
   "theorems": [
    "NBC.Props.C132_points",
    "NBC.Props.C132_keys"
   ],
   "note": "For the six curves in curves.py. The points are counted without Hasse's theorem: at most 2p+1 of them, the prime order divides the count, and no point has order two (kernel-checked certificates)."
  },
  {
   "property": "C133",
   "status": "partial",
   "theorems": [
    "NBC.Props.C133_range",
    "NBC.Props.C133_value_partial",
    "NBC.Props.C133_python3_false",
    "NBC.Props.C133_bits_false"
   ],
   "note": "C133_range and C133_value_partial are for Python 2; C133_python3_false: both always raise TypeError in Python 3; C133_bits_false: the mask keeps topbits instead of 8-topbits bits. The bit length of the order (a float logarithm) is a parameter."
  },
  {
   "property": "C134",
   "status": "partial",
   "theorems": [
    "NBC.Props.C134_secret_partial",
    "NBC.Props.C134_too_few_partial",
    "NBC.Props.C134_checksum_false"
   ],
   "note": "Python 2. Missing: at most `total` excluded numbers (none if two pieces of each key-set are unseen), and the first four bytes of the key's double hash, which every partial key carries (C134_checksum_false)."
  },
  {
   "property": "C135",
   "status": "partial",
   "theorems": [
    "NBC.Props.C135_isolated",
    "NBC.Props.C135_alone_partial",
    "NBC.Props.C135_awake",
    "NBC.Props.C135_deaf_false"
   ],
   "note": "C135_isolated for one event, C135_alone_partial over histories (in Python 2 for peers that do not send getaddr: the answer lists the address book, which others fill). Missing: on a node that is not bound to an ip, an incoming connection ends the listener, and version messages of others go unanswered (C135_deaf_false); C135_awake: only then."
  },
  {
   "property": "C136",
   "status": "partial",
   "theorems": [
    "NBC.Props.C136_digests_partial",
    "NBC.Props.C136_keys_partial",
    "NBC.Props.C136_other_digest_false"
   ],
   "note": "Missing: uniqueness, which fails. Proved: at most two digests (four when r plus the order is below p) and as many keys. C136_other_digest_false gives the second digest."
  },
  {
   "property": "C137",
   "status": "partial",
   "theorems": [
    "NBC.Props.C137_repeated_false"
   ],
   "note": "False when the random draws repeat (C137_repeated_false). That signatures with independent nonces hide the key is a hardness assumption and is not stated."
  },
  {
   "property": "C138",
   "status": "partial",
   "theorems": [
    "NBC.Props.C138_descendant_false"
   ],
   "note": "False for indices below 2^31 (C138_descendant_false). For hardened ones secrecy rests on the HMAC, which is arbitrary in the model."
  },
  {
   "property": "C139",
   "status": "proved",
   "theorems": [
    "NBC.Props.C139_exact",
    "NBC.Props.C139_bitcoin",
    "NBC.Props.C139_unique",
    "NBC.Props.C139_short_ping"
   ],
   "note": "An equivalence for all 21 message types: complete texts (with junk behind) or cut texts; soundness and completeness per field type. C139_bitcoin: all Bitcoin encodings with sizes below 2^32. C139_unique: no ambiguity."
  },
  {
   "property": "C140",
   "status": "partial",
   "theorems": [
    "NBC.Props.C140_written",
    "NBC.Props.C140_language",
    "NBC.Props.C140_read",
    "NBC.Props.C140_bitcoin",
    "NBC.Props.C140_bitcoin_false",
    "NBC.Props.C140_resent_false",
    "NBC.Props.C140_node"
   ],
   "note": "All constructed messages of all 21 types; C140_language and C140_bitcoin: which texts they are; C140_read: read back (transaction counts of headers below 2^32-1); C140_node: in all executions of a node. False of Bitcoin's encoding for payloads from 65535 bytes on, and of messages that were received cut off and are sent on."
  },
  {
   "property": "C141",
   "status": "proved",
   "theorems": [
    "NBC.Props.C141_nearest",
    "NBC.Props.C141_refused",
    "NBC.Props.C141_order",
    "NBC.Props.C141_one",
    "NBC.Props.C141_target"
   ],
   "note": "The divisor's mantissa is masked with 0x7fffff, so the sign bit of the compact form (0x800000) is dropped: bits that stand for a negative target in Bitcoin get the difficulty of the positive one."
  },
  {
   "property": "C142",
   "status": "partial",
   "theorems": [
    "NBC.Props.C142_descend",
    "NBC.Props.C142_twin",
    "NBC.Props.C142_pubkey",
    "NBC.Props.C142_sign_partial",
    "NBC.Props.C142_address_partial",
    "NBC.Props.C142_address_false",
    "NBC.Props.C142_main_false"
   ],
   "note": "Proved for all paths, draws and hash functions: the web server reaches the public twin or both sides meet the same exception (C142_descend); the twin has the same public key, accepts the same signatures, has no private key and cannot sign (C142_twin, C142_pubkey). C142_sign_partial: the owner's signatures are accepted by both exactly when the x coordinate of the nonce point is below the group order (defect of C24). C142_address_partial / C142_address_false: the addresses carry the same key hash but are the same text exactly when both sides drew the same chain number. C142_main_false: the demonstration always raises (C50)."
  },
  {
   "property": "C143",
   "status": "partial",
   "theorems": [
    "NBC.Props.C143_told",
    "NBC.Props.C143_full",
    "NBC.Props.C143_spread_partial",
    "NBC.Props.C143_peer_false",
    "NBC.Props.C143_hidden_false"
   ],
   "note": "C143_told, C143_full: exact effect of an addr message. C143_spread_partial: in Python 2 the asking node learns every address of the answer (in Python 3 there is no answer, C72_reply_false). C143_peer_false: the time stored for an own peer at its verack is the age of its last byte (zero in the model, where the clock is read once per call; a moment in reality), not the time. C143_hidden_false: with 1000 known entries of positive time such a peer is in no answer."
  },
  {
   "property": "C144",
   "status": "partial",
   "theorems": [
    "NBC.Props.C144_exact",
    "NBC.Props.C144_fermat",
    "NBC.Props.C144_bases",
    "NBC.Props.C144_prime_false",
    "NBC.Props.C144_next_false",
    "NBC.Props.C144_factorization_false",
    "NBC.Props.C144_prime_partial"
   ],
   "note": "C144_exact: exact set of accepted numbers. C144_fermat, C144_bases: consequences. C144_prime_false, C144_next_false, C144_factorization_false: a composite of 1303 bits is accepted, returned by next_prime, and given as its own only prime factor. C144_prime_partial: the test is right about all numbers up to 1229 and all that are not strong probable primes to 2 and 3; missing: the composites that are."
  },
  {
   "property": "C145",
   "status": "partial",
   "theorems": [
    "NBC.Props.C145_strings",
    "NBC.Props.C145_uniform",
    "NBC.Props.C145_failures",
    "NBC.Props.C145_total",
    "NBC.Props.C145_accepted",
    "NBC.Props.C145_cutoff_partial",
    "NBC.Props.C145_cutoff_false",
    "NBC.Props.C145_curves_partial",
    "NBC.Props.C145_curves_false",
    "NBC.Props.C145_generate"
   ],
   "note": "C145_uniform, C145_total, C145_failures: exact distribution. C145_generate: private keys of new wallets. C145_accepted, C145_cutoff_partial: at most 2^-56; missing: the 2^-60 of the comment, which is wrong for the order 256 (C145_cutoff_false). C145_curves_partial: five curves repeat fewer than one request in 2^31; missing: NIST521p (C145_curves_false)."
  },
  {
   "property": "C146",
   "status": "proved",
   "theorems": [
    "NBC.Props.C146_read",
    "NBC.Props.C146_text",
    "NBC.Props.C146_cut",
    "NBC.Props.C146_tail",
    "NBC.Props.C146_twice",
    "NBC.Props.C146_absent",
    "NBC.Props.C146_crash",
    "NBC.Props.C146_complete",
    "NBC.Props.C146_order",
    "NBC.Props.C146_missing"
   ],
   "note": "Replaces the assumption of C54_complete_partial on the JSON reader by a written-down reader. Escapes, fractions, nesting in texts not written by saveTo are refused by the model (stated in its comment). An entry missing from the file of a derived wallet is a KeyError, whichever it is (C146_missing)."
  },
  {
   "property": "C147",
   "status": "partial",
   "theorems": [
    "NBC.Props.C147_text",
    "NBC.Props.C147_secret",
    "NBC.Props.C147_default",
    "NBC.Props.C147_hd",
    "NBC.Props.C147_extend_false",
    "NBC.Props.C147_sign_partial",
    "NBC.Props.C147_sign_false"
   ],
   "note": "False for the extended-key example (C147_extend_false) and for the signature example (C147_sign_false); the rest is proved."
  },
  {
   "property": "C148",
   "status": "proved",
   "theorems": [
    "NBC.Props.C148_outputs",
    "NBC.Props.C148_count",
    "NBC.Props.C148_range",
    "NBC.Props.C148_distance",
    "NBC.Props.C148_exact",
    "NBC.Props.C148_curves"
   ],
   "note": "Counting over generator outputs; that SHA-256 output is uniform is of course not claimed."
  },
  {
   "property": "C149",
   "status": "partial",
   "theorems": [
    "NBC.Props.C149_poll",
    "NBC.Props.C149_heartbeat_false",
    "NBC.Props.C149_unread_false",
    "NBC.Props.C149_sleep_false",
    "NBC.Props.C149_loop_partial",
    "NBC.Props.C149_returns",
    "NBC.Props.C149_loop_false"
   ],
   "note": "asyncore and select are outside /repo: their part is modelled after Lib/asyncore.py. False: Connection.readable closes a connection that has been silent for three hours, and writable then still answers yes if something is queued (a getaddr of the same turn's heartbeat, a ping queued by the same call, or unread output), so that select is given a closed file and raises EBADF out of serve_forever. C149_poll is the exact condition."
  },
  {
   "property": "C150",
   "status": "partial",
   "theorems": [
    "NBC.Props.C150_base",
    "NBC.Props.C150_calls",
    "NBC.Props.C150_stops",
    "NBC.Props.C150_serve",
    "NBC.Props.C150_finally",
    "NBC.Props.C150_connections_false",
    "NBC.Props.C150_handler_false",
    "NBC.Props.C150_invalid_false",
    "NBC.Props.C150_exit"
   ],
   "note": "Proved: exactly when the loop ends with StopNode, that serve_forever then returns with the listener closed, that nothing but KeyboardInterrupt and SystemExit leaves the calls for the sockets. False: StopNode in a handler of messages or invalid_command (the node goes on), and the connections (open after the node has stopped)."
  },
  {
   "property": "C151",
   "status": "partial",
   "theorems": [
    "NBC.Props.C151_early",
    "NBC.Props.C151_waiting",
    "NBC.Props.C151_none",
    "NBC.Props.C151_deaf",
    "NBC.Props.C151_unanswered_false",
    "NBC.Props.C151_listed_false",
    "NBC.Props.C151_python2_false",
    "NBC.Props.C151_python3",
    "NBC.Props.C151_goes_on_false"
   ],
   "note": "Proved: after close no connection is taken; under Python 3 without connections the loop returns. False: the loop goes on under Python 2 and while a connection is open, and a close between the listing of the sockets and select ends it with an exception; and version messages that come after it are not acknowledged."
  },
  {
   "property": "C152",
   "status": "partial",
   "theorems": [
    "NBC.Props.C152_equal_false",
    "NBC.Props.C152_list_false",
    "NBC.Props.C152_set_partial",
    "NBC.Props.C152_set_false"
   ],
   "note": "False of == (always RecursionError) and of lists except for the first element; proved for sets and dictionaries without two entries of one hash."
  },
  {
   "property": "C153",
   "status": "partial",
   "theorems": [
    "NBC.Props.C153_message",
    "NBC.Props.C153_history",
    "NBC.Props.C153_bounded_false",
    "NBC.Props.C153_amplified_false"
   ],
   "note": "False parts: no bound on the queue (pings), amplification by getaddr in Python 2 (none in Python 3, where getaddr is not answered, C72)."
  },
  {
   "property": "C154",
   "status": "partial",
   "theorems": [
    "NBC.Props.C154_secret",
    "NBC.Props.C154_address",
    "NBC.Props.C154_hd",
    "NBC.Props.C154_hd_many",
    "NBC.Props.C154_hd_false"
   ],
   "note": "False of HD wallets (C154_hd_false): a wallet saved under 'correct' opens under 'bain' with another key. Proved: exactly which texts open under a passphrase (C154_secret, C154_address, C154_hd) and how many (C154_hd_many). For wallets of one address the four checksum bytes must fit; that no wrong passphrase ever fits cannot be proved, since it would be a statement about AES and SHA-256 together."
  },
  {
   "property": "C155",
   "status": "partial",
   "theorems": [
    "NBC.Props.C155_hd_false",
    "NBC.Props.C155_plain_false",
    "NBC.Props.C155_chain_false",
    "NBC.Props.C155_cut_partial",
    "NBC.Props.C155_address_partial"
   ],
   "note": "False of HD wallets: with a passphrase, the last 32 of the 48 bytes may be anything (C155_hd_false); without one, every other key of the range (C155_plain_false); the chain code is always taken (C155_chain_false). Proved: missing digits are noticed (C155_cut_partial), and a wallet of one address that opens holds a key with a right checksum (C155_address_partial)."
  },
  {
   "property": "C156",
   "status": "partial",
   "theorems": [
    "NBC.Props.C156_hd_false",
    "NBC.Props.C156_blocks_partial"
   ],
   "note": "False: the files are equal exactly if the keys are, and their first 16 (32) bytes exactly if the first 14 (30) bytes of the keys are (C156_hd_false). C156_blocks_partial says the same for every secret, block by block; that AES hides its input is not expressible here."
  },
  {
   "property": "C157",
   "status": "partial",
   "theorems": [
    "NBC.Props.C157_lines_partial",
    "NBC.Props.C157_reject_false",
    "NBC.Props.C157_version_false",
    "NBC.Props.C157_alert_false",
    "NBC.Props.C157_refused",
    "NBC.Props.C157_told_apart",
    "NBC.Props.C157_text",
    "NBC.Props.C157_quotes",
    "NBC.Props.C157_unhandled",
    "NBC.Props.C157_alert"
   ],
   "note": "Holds in Python 3 and above the level of debugging. False in Python 2: `_debug` shows a user agent or the text of a rejection as it is, and `str` of an alert the sub-versions, so a peer writes any line of its choice into the log. Tracebacks are not modelled."
  },
  {
   "property": "C158",
   "status": "partial",
   "theorems": [
    "NBC.Props.C158_typed_partial",
    "NBC.Props.C158_waits",
    "NBC.Props.C158_white_false",
    "NBC.Props.C158_typable",
    "NBC.Props.C158_alphabet_false",
    "NBC.Props.C158_utf8_false",
    "NBC.Props.C158_given",
    "NBC.Props.C158_saved",
    "NBC.Props.C158_blank",
    "NBC.Props.C158_padded",
    "NBC.Props.C158_open"
   ],
   "note": "Proved for passphrases that neither begin nor end with white space (C158_typed_partial); exactly those whose first byte is not white can be typed at all (C158_typable, C158_white_false). False in Python 3 of text outside ASCII: the prompt encodes in latin-1, so a wallet saved with UTF-8 is decrypted with another key (C158_utf8_false), and letters from U+0100 on are refused (C158_alphabet_false)."
  },
  {
   "property": "C159",
   "status": "partial",
   "theorems": [
    "NBC.Props.C159_back_false",
    "NBC.Props.C159_forward_false",
    "NBC.Props.C159_steady_partial",
    "NBC.Props.C159_beats_partial"
   ],
   "note": "False of the code for a clock set back (no heartbeat until it has caught up) and for one set forward by more than three hours (all connections closed); proved for readings within three hours."
  },
  {
   "property": "C160",
   "status": "partial",
   "theorems": [
    "NBC.Props.C160_decode",
    "NBC.Props.C160_wif_partial",
    "NBC.Props.C160_callers_partial",
    "NBC.Props.C160_letters",
    "NBC.Props.C160_unicode_false",
    "NBC.Props.C160_wallet_false",
    "NBC.Props.C160_encode"
   ],
   "note": "False for `unicode` in Python 2 and for `Address` in both versions; proved for Python 3 elsewhere."
  },
  {
   "property": "C161",
   "status": "partial",
   "theorems": [
    "NBC.Props.C161_nonce_false",
    "NBC.Props.C161_self_false",
    "NBC.Props.C161_early_false",
    "NBC.Props.C161_bound_partial"
   ],
   "note": "False of the code for self-connections under another address and for messages before the handshake; proved for the bound address."
  },
  {
   "property": "C162",
   "status": "partial",
   "theorems": [
    "NBC.Props.C162_keys_partial",
    "NBC.Props.C162_refused",
    "NBC.Props.C162_address_false",
    "NBC.Props.C162_utf8_false"
   ],
   "note": "Partial: the keys are recovered; the addresses are not, as the virtual chain number of each child is drawn at random, and the same text as UTF-8 bytes is another seed."
  },
  {
   "property": "C163",
   "status": "partial",
   "theorems": [
    "NBC.Props.C163_signed_partial",
    "NBC.Props.C163_back",
    "NBC.Props.C163_width",
    "NBC.Props.C163_wide_false"
   ],
   "note": "Partial: true of values that fit in the width; a wider value is not cut down to it."
  },
  {
   "property": "C164",
   "status": "partial",
   "theorems": [
    "NBC.Props.C164_alone_partial",
    "NBC.Props.C164_listed",
    "NBC.Props.C164_raised",
    "NBC.Props.C164_kept_partial",
    "NBC.Props.C164_missed_false",
    "NBC.Props.C164_changed_false",
    "NBC.Props.C164_stops_false",
    "NBC.Props.C164_py2"
   ],
   "note": "Partial: true in Python 2 and without interference; in Python 3 any connection added or removed during the walk raises RuntimeError, which in the heartbeat stops the node, and a moved dictionary hides a connection."
  },
  {
   "property": "C165",
   "status": "partial",
   "theorems": [
    "NBC.Props.C165_py3_false",
    "NBC.Props.C165_py2_false",
    "NBC.Props.C165_accept_false",
    "NBC.Props.C165_quiet_partial"
   ],
   "note": "Partial: the listener stays open while nobody connects; no connection is ever taken."
  },
  {
   "property": "C166",
   "status": "partial",
   "theorems": [
    "NBC.Props.C166_declared_partial",
    "NBC.Props.C166_direct",
    "NBC.Props.C166_set_false",
    "NBC.Props.C166_below_false",
    "NBC.Props.C166_replaced_false",
    "NBC.Props.C166_module",
    "NBC.Props.C166_parse",
    "NBC.Props.C166_received_partial",
    "NBC.Props.C166_long_false"
   ],
   "note": "Partial: true of classes derived from Message itself with a command of at most 12 characters of its own; the flag of the class itself is never looked at."
  },
  {
   "property": "C167",
   "status": "partial",
   "theorems": [
    "NBC.Props.C167_address_partial",
    "NBC.Props.C167_any_port_partial",
    "NBC.Props.C167_default_false",
    "NBC.Props.C167_in_use_partial",
    "NBC.Props.C167_in_use_false",
    "NBC.Props.C167_left_open_false",
    "NBC.Props.C167_refuses",
    "NBC.Props.C167_newbitcoin",
    "NBC.Props.C167_lasts"
   ],
   "note": "Proved for an ip and a port other than 0 (C167_address_partial, C167_newbitcoin, C167_lasts), and for port 0 or no address where asyncore has __getattr__. False: on Python 3.11 a node without an address or with port 0 cannot be made; AddrInUseError is raised only on darwin (errno 48); a failing constructor leaves its socket open."
  },
  {
   "property": "C168",
   "status": "partial",
   "theorems": [
    "NBC.Props.C168_spare_partial",
    "NBC.Props.C168_files_false",
    "NBC.Props.C168_small",
    "NBC.Props.C168_select_false",
    "NBC.Props.C168_flood_false"
   ],
   "note": "Proved while there are files left (C168_spare_partial) and for small file numbers (C168_small). False: as many connections as there are files, from one peer, stop the node listening for good, whatever max_peers is; where more than 1024 files may be open, 1024 connections end the loop with an exception."
  },
  {
   "property": "C169",
   "status": "partial",
   "theorems": [
    "NBC.Props.C169_unchecked",
    "NBC.Props.C169_same",
    "NBC.Props.C169_own_curve_false"
   ],
   "note": "Exact result of the unchecked call on every curve; equality of the accepted keys on the six curves; false on a curve of cofactor 3."
  },
  {
   "property": "C170",
   "status": "partial",
   "theorems": [
    "NBC.Props.C170_kept_false",
    "NBC.Props.C170_known_partial",
    "NBC.Props.C170_once",
    "NBC.Props.C170_grows_false"
   ],
   "note": "Entries come only from punishments, one per ip; false: none is ever removed, and the table takes up any list of ips."
  },
  {
   "property": "C171",
   "status": "proved",
   "theorems": [
    "NBC.Props.C171_exact",
    "NBC.Props.C171_injective"
   ],
   "note": "Exact characterisation of the text, and injectivity; the mini-language of format is modelled for `,d` on integers."
  },
  {
   "property": "C172",
   "status": "proved",
   "theorems": [
    "NBC.Props.C172_saved",
    "NBC.Props.C172_loaded",
    "NBC.Props.C172_moves"
   ],
   "note": "C172_saved: writing; C172_loaded: reading, with the exact difference in exceptions; C172_moves: both together through the text of the file."
  },
  {
   "property": "C173",
   "status": "partial",
   "theorems": [
    "NBC.Props.C173_equal_partial",
    "NBC.Props.C173_order_partial",
    "NBC.Props.C173_alphabetical_partial",
    "NBC.Props.C173_keys_partial",
    "NBC.Props.C173_keys_python3",
    "NBC.Props.C173_python3_false",
    "NBC.Props.C173_symbol_false",
    "NBC.Props.C173_other_false",
    "NBC.Props.C173_shown"
   ],
   "note": "Python 2: C173_equal_partial, C173_order_partial, C173_alphabetical_partial, C173_keys_partial. False: in Python 3 objects of the same coin are different and cannot be sorted (C173_python3_false, exactly C173_keys_python3); coins with one name and different symbols (C173_symbol_false); comparison with something without a name raises in Python 2 (C173_other_false)."
  },
  {
   "property": "C174",
   "status": "partial",
   "theorems": [
    "NBC.Props.C174_life_partial",
    "NBC.Props.C174_watch_false"
   ],
   "note": "C174_life_partial: the whole way, with the exact condition on the key and the nonce. False: C174_watch_false, a new address whose published compressed key is refused (the defect of C26)."
  },
  {
   "property": "C175",
   "status": "proved",
   "theorems": [
    "NBC.Props.C175_tagged",
    "NBC.Props.C175_release",
    "NBC.Props.C175_order",
    "NBC.Props.C175_shipped",
    "NBC.Props.C175_working_copy",
    "NBC.Props.C175_unpacked",
    "NBC.Props.C175_commands"
   ],
   "note": "C175_tagged, C175_release, C175_order: names filled in; C175_shipped: the library as it is; C175_working_copy, C175_unpacked, C175_commands: names not filled in."
  },
  {
   "property": "C176",
   "status": "partial",
   "theorems": [
    "NBC.Props.C176_separate",
    "NBC.Props.C176_accepted",
    "NBC.Props.C176_unrelated",
    "NBC.Props.C176_order",
    "NBC.Props.C176_utf8",
    "NBC.Props.C176_text_partial",
    "NBC.Props.C176_pythons_false",
    "NBC.Props.C176_kinds_false",
    "NBC.Props.C176_python2_false"
   ],
   "note": "C176_separate: blocks of different seeds or counters are alike only if SHA-256 has a collision. C176_unrelated: for every choice of scalars for all usable seeds of one kind there is a hash function with which both functions derive just these. C176_accepted, C176_order: exactly which seeds and orders are accepted. C176_utf8: text is hashed in UTF-8 in Python 3. C176_text_partial: text of ASCII characters has the same key in both Pythons. False otherwise: C176_pythons_false (a seed of bytes is hashed as its repr in Python 3: another key than in Python 2), C176_kinds_false (in Python 3 each seed of bytes has the key of the text that is its repr), C176_python2_false (Python 2 accepts only 128^n of the 256^n seeds os.urandom(n) may give)."
  },
  {
   "property": "C177",
   "status": "partial",
   "theorems": [
    "NBC.Props.C177_uniform",
    "NBC.Props.C177_again",
    "NBC.Props.C177_half_partial",
    "NBC.Props.C177_average",
    "NBC.Props.C177_half_false"
   ],
   "note": "C177_uniform (exactly uniform after any number of tries), C177_again (exact count of the sequences for which T tries are not enough), C177_average (exact average, range/(order-1) in the limit). C177_half_partial: the chance is at most one half if the bits of a try are as many as those of order-1. C177_half_false: bits_and_bytes counts them with a logarithm in floating point, which gives 257 for secp256k1 (one too many for all curves but NIST256p): there the chance is above one half. The numbers of bits are parameters of the model, because the logarithm is not modelled."
  },
  {
   "property": "C178",
   "status": "proved",
   "theorems": [
    "NBC.Props.C178_made",
    "NBC.Props.C178_text",
    "NBC.Props.C178_same",
    "NBC.Props.C178_refused",
    "NBC.Props.C178_child",
    "NBC.Props.C178_shared"
   ],
   "note": "C178_made, C178_text and C178_same hold for every curve; C178_refused, C178_child and C178_shared give the outcome of each function."
  },
  {
   "property": "C179",
   "status": "partial",
   "theorems": [
    "NBC.Props.C179_public_partial",
    "NBC.Props.C179_private_partial",
    "NBC.Props.C179_length_false",
    "NBC.Props.C179_forms_false",
    "NBC.Props.C179_trailing_partial",
    "NBC.Props.C179_tail_false",
    "NBC.Props.C179_pem_partial",
    "NBC.Props.C179_read_partial"
   ],
   "note": "C179_public_partial and C179_private_partial prove everything but the last sentence; C179_read_partial says that the key is the one that stands in the text, C179_pem_partial is the same for PEM files, and C179_trailing_partial refuses a text as long as it claims with anything after it. The last sentence is false: the claimed length of the whole may be larger than what there is (C179_length_false), so that every public key on SECP256k1 is read from 42 texts (C179_forms_false), and what follows the curve in a private key is not read (C179_tail_false)."
  },
  {
   "property": "C180",
   "status": "proved",
   "theorems": [
    "NBC.Props.C180_extended",
    "NBC.Props.C180_address",
    "NBC.Props.C180_objects",
    "NBC.Props.C180_kinds",
    "NBC.Props.C180_paths",
    "NBC.Props.C180_lengths",
    "NBC.Props.C180_refused",
    "NBC.Props.C180_combine"
   ],
   "note": "C180_extended, C180_address, C180_objects, C180_paths and C180_kinds; C180_lengths gives the lengths of private and partial keys; C180_refused and C180_combine say that texts of another kind given for private or partial keys are refused."
  },
  {
   "property": "C181",
   "status": "partial",
   "theorems": [
    "NBC.Props.C181_private_partial",
    "NBC.Props.C181_public_partial",
    "NBC.Props.C181_vcn_false",
    "NBC.Props.C181_paths_partial",
    "NBC.Props.C181_places",
    "NBC.Props.C181_siblings"
   ],
   "note": "C181_private_partial and C181_public_partial prove everything but the last sentence, for all wallets with fields in range (C51_paths: all derived ones); C181_paths_partial adds that for derived wallets an extended public key belongs to one private key, and C181_places and C181_siblings that a wallet, its ancestors and its siblings have different extended keys. The last sentence is false: the virtual chain number is not in the extended keys, so that wallets with the same extended keys have different addresses (C181_vcn_false)."
  }
 ]
}