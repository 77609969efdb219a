{
 "C01": {
  "note": "all byte strings"
 },
 "C04": {
  "note": "prefix 0x80, any checksum function with 32-byte output"
 },
 "C15": {
  "note": "false for x = 1 (mod m), x != 1 (answer 2) and for x < 0 (AssertionError); proved in all other cases"
 },
 "C11": {
  "note": "for every value of the float logarithm that selects the number of rounds"
 },
 "C16": {
  "note": "Mathlib's group law on WeierstrassCurve.Affine.Point over ZMod p is the specification"
 },
 "C17": {
  "note": "odd order hypothesis for totality; C17_mul_sound needs none"
 },
 "C19": {
  "note": "false: the assertion reduces order modulo itself first and never fires; witness on the curve of X9.62"
 },
 "C86": {
  "note": "false: 27*(13,7) on y^2=x^3+x+1 mod 23 has y=-7; exact for reduced coordinates"
 },
 "C24": {
  "note": "false when the nonce point has x >= n (r is not reduced). C24_sign_verify_partial is exact: with an uncompressed key verify answers r < n; with a compressed key r < n and the square one of y, p - y is below n"
 },
 "C25": {
  "note": "false: seven exceptions escape, with witnesses; the complete list of outcomes is proved, and for decodable signatures the exact condition of the TypeError"
 },
 "C26": {
  "note": "compress after decompress in full; decompress after compress exact for all points: it fails precisely when the one of y and p - y that is a square is >= n (witness y = 6)"
 },
 "C28": {
  "note": "agreement for every accepted pair of public keys and WIF strings; false for compressed keys that decompress_public_key refuses"
 },
 "C33": {
  "note": "range and reproducibility in full; Python 2 and 3 agree on the first candidate (rolen is a float in Python 3), and on all of them under C33_divisions_partial's condition on the sizes"
 },
 "C34": {
  "note": "false: order / 2 is a float; bound with relative error 2^-53 proved"
 },
 "C89": {
  "note": "The order of NIST521p is certified with Pocklington steps down to a 361-bit prime and eight elliptic curve (Goldwasser-Kilian) steps below it, all checked by the kernel."
 },
 "C36": {
  "note": "32-byte keys fail in Python 3 (C36_python3_false): KC / 2 is a float; everything else is covered, with both orders of composition"
 },
 "C37": {
  "note": "refinement to an independent FIPS-197 specification, tables included; 32-byte keys only in Python 2 as for C36 (C37_python3_false: no such key works in Python 3)"
 },
 "C38": {
  "note": ""
 },
 "C39": {
  "note": ""
 },
 "C40": {
  "note": ""
 },
 "C41": {
  "note": "Python 2 with non-empty chunks; an empty chunk finishes the feeder (C41_empty_chunk_false) and in Python 3 no chunk can be fed (C41_python3_false)"
 },
 "C42": {
  "note": "round trip in Python 2 and the exact set of rejected strings; rejection of malformed padding is false (C42_malformed_false), and Python 3 cannot strip at all (C42_python3_false)"
 },
 "C90": {
  "note": "encryption in each mode equals the mode of SP 800-38A over the FIPS-197 block function"
 },
 "C59": {
  "note": "Proved for n < 2^32-1. False above: FtVarInteger.parse tests 0xfd twice (format.py:251), so every 9-byte form is read as 255 (C59_varint_false, all n in [2^32-1, 2^64))."
 },
 "C60": {
  "note": "All eight formats, both byte orders, integers and (finite, dyadic) floats."
 },
 "C61": {
  "note": "All 2^128 addresses, and every text that can be written."
 },
 "C62": {
  "note": "C62_exact_partial says exactly which variable integers, strings and addresses can be written. Numbers, fixed bytes, the optional flag, arrays of such and objects with such fields always can. False in general: negative or huge variable integers, '1:2', non Latin-1 text."
 },
 "C63": {
  "note": "Every registered message type against the relational wire specification (Spec/Wire). Payload below 4 GiB, four-byte magic."
 },
 "C64": {
  "note": "Every byte string of at least 20 bytes; shorter ones raise struct.error, C64_accepted covers all lengths."
 },
 "C65": {
  "note": "Proved for ten message types, false for the other eleven (witness for each), C65_all_commands shows the lists are exhaustive."
 },
 "C66": {
  "note": "Proved for the returned message of 19 types with bound |data|+96, at all nesting depths. getblocks/getheaders have no bound (C66_elements_false); a merkleblock that is refused may build any number of hashes first (C66_work_false)."
 },
 "C79": {
  "note": "Proved for all integers: get_version inverts make_version wherever it accepts, make_version inverts get_version everywhere, and arguments outside [0, 99] are refused."
 },
 "C80": {
  "note": "False as stated: repeating the last transactions can keep the root (CVE-2012-2459), proved for every hash and any three transactions. Proved: the loop computes the specified tree; equal roots bind the serialised transactions for lists of equal length, and for lists of any lengths when no transaction is 64 bytes long and no level ends in two equal nodes, given no collision among the strings actually hashed."
 },
 "C81": {
  "note": "Python 2: get_target is the 32-byte compact target for exponents 3 to 32 and comparing strings compares numbers. False in Python 3 (str.decode), and verify_target is unusable with every coin in the repository because none defines proof_of_work."
 },
 "C82": {
  "note": "Proved for integer timestamps and transaction counts in [0, 2^64). False for float timestamps (accepted by BlockHeader, refused by struct) and for other counts (accepted but not serialisable)."
 },
 "C55": {
  "note": "Python 2: the keys of a split combine, in any order, to the uncompressed WIF of the secret mod n, for every count and draw. False in Python 3 (xrange) and for compressed keys (the compression flag is lost)."
 },
 "C56": {
  "note": "Proved for every list of keys, and for two keys on the points the code computes."
 },
 "C57": {
  "note": "Characterised in Python 2 for every choice of groups, order of keys and dictionary order: the key comes back exactly when the groups contain `required` cyclically consecutive ones. False for arbitrary choices of `required` groups (two-of-four, groups 0 and 2, every key and draw), when a key-set repeats a key, and in Python 3."
 },
 "C58": {
  "note": "Proved for every result of partial_split_private_key."
 },
 "C91": {
  "note": "False: get_address raises for all arguments (the call of publickey_to_address lacks vcn; in Python 3 the check of the first byte already fails)."
 },
 "C43": {
  "note": "C43_roundtrip_partial: secrets of 1 to 240 bytes, every non-empty passphrase. C43_limit: longer ones are encrypted but then refused. C43_empty_false: an empty secret is not loaded back."
 },
 "C44": {
  "note": "False as stated: C44_same_start_false and C44_wallet_false show that any two passphrases with the same first 16 bytes are interchangeable. C44_keys_partial: when the zero-padded 16-byte keys differ the AES keys used differ. That a wrong key yields a detected error is not a theorem about AES and is not claimed."
 },
 "C45": {
  "note": "C45_private_partial (every constructed address with a private key is loaded back identical), C45_prompt (the asked-for passphrase), C45_watch_partial (uncompressed watch-only). C45_watch_compressed_false: a compressed watch-only address comes back uncompressed, with another address."
 },
 "C46": {
  "note": "C46_private_partial and C46_same_partial: private HD wallets come back identical. C46_public_partial describes public ones exactly; C46_public_false: the point is negated when the one of y and p - y that is a square is odd."
 },
 "C48": {
  "note": "C48_deterministic_partial: everything but the chain number is determined by wallet and index. C48_vcn_false: the chain number is drawn at random and changes the address."
 },
 "C50": {
  "note": "C50_reimport_false: from_extended_key always raises, at its first and again at its last statement. C50_private_partial, C50_public_partial: the part between reads exactly the exported fields (public: with the sign error of C46). Past the first statement the import of well-formed fields stops with NameError (C50_last_false)."
 },
 "C52": {
  "note": "C52_compress, C52_decompress and C52_sign_verify_same cover wallets with a private key; C52_sign_verify_partial has the defect of C24. Watch-only wallets: C52_watch_partial when x, y and the square one of y and p - y are below the group order; C52_watch_false: some other keys cannot be compressed or decompressed."
 },
 "C54": {
  "note": "C54_crash_false: the file passes through the empty content. C54_dump_fails_partial: a failing dump leaves the file alone. C54_complete_partial: an uninterrupted save of a private wallet can be loaded."
 },
 "C67": {
  "note": "every splitting of the stream gives the same frames; the frames and the buffer together are the bytes received"
 },
 "C68": {
  "note": "handle_read never raises and terminates; every complete frame is handled once, and a refused frame leaves only the counters changed"
 },
 "C69": {
  "note": "in every history of the node, for every connection"
 },
 "C70": {
  "note": "in every history of the node"
 },
 "C71": {
  "note": "false: command_address tests '> MAX_ADDRESSES' before adding, so 2501 addresses are reachable (C71_bound_false); the bound 2501 is proved for every history. C71_verack: command_version_ack adds an address only below 2500."
 },
 "C72": {
  "note": "Python 2 only: in Python 3 sorted() is called with a positional comparison function and getaddr is never answered (C72_reply_false)"
 },
 "C73": {
  "note": "every state, and through handle_read for a whole frame"
 },
 "C74": {
  "note": "false: bans are recorded under the ip but looked up under (ip, port), so the ban list refuses nobody after any history (C74_reconnect_false); what holds is that the peer is closed and recorded"
 },
 "C75": {
  "note": "range in every history; exact effect of one punishment and of one heartbeat"
 },
 "C76": {
  "note": "plurality for every state; and for every well-formed version message through the frame handler, while the node listens. Missing: a node whose listener has been closed (asyncore hides its method connected), C76_closed_false"
 },
 "C77": {
  "note": "own address: while the listener is open. handle_accept and add_any_peer are not bound by max_peers (C77_exceeded)"
 },
 "C78": {
  "note": "false for a connection that has never received anything (C78_silent_false); exact effect of one poll and the spacing of pings over histories are proved"
 },
 "C92": {
  "note": "PEM text as bytes; base64 modelled character by character (binascii semantics: characters outside the alphabet are skipped). Independent spec: RFC 4648 by bits. C92_labels: what the first and last lines say."
 },
 "C94": {
  "note": "Also the canonical forms through C95_codecs."
 },
 "C95": {
  "note": "Partial: as in C23, r is not reduced modulo the order, so for a nonce point with x >= order verification raises BadSignatureError. C95_sign_verify_false gives, for every message, such a key and nonce on secp256k1."
 },
 "C96": {
  "note": "The nonce equals RFC 6979's under Python 2 division for any number of rounds; under Python 3 division it can differ from the second candidate on, when the candidate block has exactly the length of the order (C33_division_false); C96_divisions_partial names the library curves and hashes where it cannot. C96_verify_partial is exact. sign_digest_deterministic without hashfunc raises TypeError."
 },
 "C97": {
  "note": "False for verifying keys: from_pem and from_der take no hash function and always give SHA-1. True for SHA-1, and for signing keys when the caller names the hash again."
 },
 "C98": {
  "note": "false of a node bound to a name or to all interfaces: the version message cannot be built, handle_accept raises and asyncore closes the listener; proved for nodes bound to an ip. The loop can still end because select is given a closed socket: C149"
 },
 "C99": {
  "note": "false for addresses with a name; proved for addresses with an ip, with the exact state afterwards"
 },
 "C100": {
  "note": "false for addresses with a name; proved when seeds, accepted and added addresses have ips"
 },
 "C101": {
  "note": "the number of known addresses is that after connecting, which may remove some"
 },
 "C102": {
  "note": "only the trivial bound 24 + 2**32 holds; any smaller one is false"
 },
 "C103": {
  "note": "false: punish_peer is not called anywhere in the code"
 },
 "C104": {
  "note": "false when the listener's own address is in the book, which peers can bring about; proved otherwise, for rounds without the turn of a seed"
 },
 "C105": {
  "note": "magic, checksum and command of accepted frames are those of C64"
 },
 "C106": {
  "note": "one key, the sum of the pieces seen, is excluded when the missing piece is a random one; with two or more missing nothing is excluded; no split exists in Python 3"
 },
 "C107": {
  "note": "the computed piece may be 0; exact condition proved"
 },
 "C108": {
  "note": "exact condition: number of keys 3 or 4 modulo 5 and indices 0..m but one; Python 3 writes no text"
 },
 "C109": {
  "note": "'::' alone is refused, a dotted quad at the end raises ValueError, ':1' is taken for '::1'. C109_capitals: letters may be capitals; C109_letters: no other characters than digits, separators and what int() lets pass A plus before the groups of a dotted quad is passed over (C109_plus); a group below zero is refused wherever it stands (C109_minus)."
 },
 "C110": {
  "note": "Python 2; in Python 3 both functions raise AttributeError"
 },
 "C111": {
  "note": "a payload that breaks off raises only at the first read; later reads see a half-filled cache"
 },
 "C112": {
  "note": "comparing the index is a NameError (otehr)"
 },
 "C113": {
  "note": ""
 },
 "C114": {
  "note": ""
 },
 "C115": {
  "note": "two users of one seeder: the second pop raises IndexError"
 },
 "C116": {
  "note": "the time the main thread needs between two waits is not counted"
 },
 "C117": {
  "note": "with a list on the path always None (ininstance is a NameError that is caught)"
 },
 "C118": {
  "note": "NameError except on darwin; a taken port ends with the wrong mapping deleted; port 65536"
 },
 "C119": {
  "note": "SHA-256 is concrete here (Model/Sha)"
 },
 "C120": {
  "note": "exact for signatures that decode; others raise; C120_answers_partial says when verify answers True, False or raises"
 },
 "C121": {
  "note": "with a matching symbol any name will do"
 },
 "C122": {
  "note": "C122_private and C122_public: child is CKDpriv/CKDpub of Spec/Bip32, errors exactly where BIP 32 has no child; C122_path for paths. Partial: from_master_seed reduces I_L modulo n instead of refusing I_L >= n (C122_master_false)."
 },
 "C123": {
  "note": "Two nodes with arbitrary histories; the network is the hypothesis that one connection's received bytes are a prefix of (equal to) the other's sent bytes. Owners may send any registered message at any time."
 },
 "C124": {
  "note": "Quiescent form: whenever both send buffers are empty and all bytes have arrived, both connections open. Addresses with ips (as in C100); owners do not send version messages of their own."
 },
 "C128": {
  "note": "False: ecc's sigdecode_der ignores everything behind the sequence, so every accepted signature has infinitely many accepted texts (C128_texts_false), and (r, n-s) is accepted next to (r, s) even in the strict form (C128_negated_false). What holds: strict texts are determined by their numbers (C128_strict_partial)."
 },
 "C21": {
  "note": "Proved up to r < n: sign returns the x coordinate of the nonce point unreduced, so for a coordinate in [n, p) the signature is rejected by verifies (C21_sign_verify_false gives such a nonce on secp256k1)."
 },
 "C31": {
  "note": "False from 2^1015 on: encode_integer writes its length in one byte; below that bound proved (C31_integer_partial), and no larger integer survives (C31_integer_false)."
 },
 "C129": {
  "note": "Headers in full. For transactions: the exact condition (all size texts are those this code writes) under which the hash is that of the bytes received, and two negations: Bitcoin's own encoding of a script of 65535 bytes, and two texts of one transaction."
 },
 "C130": {
  "note": "The language is Spec/Reading with the size texts readSize: one byte except 0xfd and 0xfe (so 0xff is 255), or 0xfd and two bytes, or 0xfe and four, shortest or not. C130_bitcoin is about sizes below 2^32."
 },
 "C131": {
  "note": "C131_frames: a BaseNode is left in the same state by every frame at every level. C131_received_partial and C131_alert_partial also compare what is raised, for any handler. Only whether a text can be made is modelled; print_ to the log file (which may raise for characters its encoding lacks, or when the disk is full) is not."
 },
 "C132": {
  "note": "For the six curves in curves.py. The points are counted without Hasse's theorem: at most 2p+1 of them, the prime order divides the count, and no point has order two (kernel-checked certificates)."
 },
 "C133": {
  "note": "C133_range and C133_value_partial are for Python 2; C133_python3_false: both always raise TypeError in Python 3; C133_bits_false: the mask keeps topbits instead of 8-topbits bits. The bit length of the order (a float logarithm) is a parameter."
 },
 "C134": {
  "note": "Python 2. Missing: at most `total` excluded numbers (none if two pieces of each key-set are unseen), and the first four bytes of the key's double hash, which every partial key carries (C134_checksum_false)."
 },
 "C135": {
  "note": "C135_isolated for one event, C135_alone_partial over histories (in Python 2 for peers that do not send getaddr: the answer lists the address book, which others fill). Missing: on a node that is not bound to an ip, an incoming connection ends the listener, and version messages of others go unanswered (C135_deaf_false); C135_awake: only then."
 },
 "C136": {
  "note": "Missing: uniqueness, which fails. Proved: at most two digests (four when r plus the order is below p) and as many keys. C136_other_digest_false gives the second digest."
 },
 "C137": {
  "note": "False when the random draws repeat (C137_repeated_false). That signatures with independent nonces hide the key is a hardness assumption and is not stated."
 },
 "C138": {
  "note": "False for indices below 2^31 (C138_descendant_false). For hardened ones secrecy rests on the HMAC, which is arbitrary in the model."
 },
 "C139": {
  "note": "An equivalence for all 21 message types: complete texts (with junk behind) or cut texts; soundness and completeness per field type. C139_bitcoin: all Bitcoin encodings with sizes below 2^32. C139_unique: no ambiguity."
 },
 "C140": {
  "note": "All constructed messages of all 21 types; C140_language and C140_bitcoin: which texts they are; C140_read: read back (transaction counts of headers below 2^32-1); C140_node: in all executions of a node. False of Bitcoin's encoding for payloads from 65535 bytes on, and of messages that were received cut off and are sent on."
 },
 "C141": {
  "note": "The divisor's mantissa is masked with 0x7fffff, so the sign bit of the compact form (0x800000) is dropped: bits that stand for a negative target in Bitcoin get the difficulty of the positive one."
 },
 "C142": {
  "note": "Proved for all paths, draws and hash functions: the web server reaches the public twin or both sides meet the same exception (C142_descend); the twin has the same public key, accepts the same signatures, has no private key and cannot sign (C142_twin, C142_pubkey). C142_sign_partial: the owner's signatures are accepted by both exactly when the x coordinate of the nonce point is below the group order (defect of C24). C142_address_partial / C142_address_false: the addresses carry the same key hash but are the same text exactly when both sides drew the same chain number. C142_main_false: the demonstration always raises (C50)."
 },
 "C143": {
  "note": "C143_told, C143_full: exact effect of an addr message. C143_spread_partial: in Python 2 the asking node learns every address of the answer (in Python 3 there is no answer, C72_reply_false). C143_peer_false: the time stored for an own peer at its verack is the age of its last byte (zero in the model, where the clock is read once per call; a moment in reality), not the time. C143_hidden_false: with 1000 known entries of positive time such a peer is in no answer."
 },
 "C144": {
  "note": "C144_exact: exact set of accepted numbers. C144_fermat, C144_bases: consequences. C144_prime_false, C144_next_false, C144_factorization_false: a composite of 1303 bits is accepted, returned by next_prime, and given as its own only prime factor. C144_prime_partial: the test is right about all numbers up to 1229 and all that are not strong probable primes to 2 and 3; missing: the composites that are."
 },
 "C145": {
  "note": "C145_uniform, C145_total, C145_failures: exact distribution. C145_generate: private keys of new wallets. C145_accepted, C145_cutoff_partial: at most 2^-56; missing: the 2^-60 of the comment, which is wrong for the order 256 (C145_cutoff_false). C145_curves_partial: five curves repeat fewer than one request in 2^31; missing: NIST521p (C145_curves_false)."
 },
 "C146": {
  "note": "Replaces the assumption of C54_complete_partial on the JSON reader by a written-down reader. Escapes, fractions, nesting in texts not written by saveTo are refused by the model (stated in its comment). An entry missing from the file of a derived wallet is a KeyError, whichever it is (C146_missing)."
 },
 "C147": {
  "note": "False for the extended-key example (C147_extend_false) and for the signature example (C147_sign_false); the rest is proved."
 },
 "C148": {
  "note": "Counting over generator outputs; that SHA-256 output is uniform is of course not claimed."
 },
 "C149": {
  "note": "asyncore and select are outside /repo: their part is modelled after Lib/asyncore.py. False: Connection.readable closes a connection that has been silent for three hours, and writable then still answers yes if something is queued (a getaddr of the same turn's heartbeat, a ping queued by the same call, or unread output), so that select is given a closed file and raises EBADF out of serve_forever. C149_poll is the exact condition."
 },
 "C150": {
  "note": "Proved: exactly when the loop ends with StopNode, that serve_forever then returns with the listener closed, that nothing but KeyboardInterrupt and SystemExit leaves the calls for the sockets. False: StopNode in a handler of messages or invalid_command (the node goes on), and the connections (open after the node has stopped)."
 },
 "C151": {
  "note": "Proved: after close no connection is taken; under Python 3 without connections the loop returns. False: the loop goes on under Python 2 and while a connection is open, and a close between the listing of the sockets and select ends it with an exception; and version messages that come after it are not acknowledged."
 },
 "C152": {
  "note": "False of == (always RecursionError) and of lists except for the first element; proved for sets and dictionaries without two entries of one hash."
 },
 "C153": {
  "note": "False parts: no bound on the queue (pings), amplification by getaddr in Python 2 (none in Python 3, where getaddr is not answered, C72)."
 },
 "C154": {
  "note": "False of HD wallets (C154_hd_false): a wallet saved under 'correct' opens under 'bain' with another key. Proved: exactly which texts open under a passphrase (C154_secret, C154_address, C154_hd) and how many (C154_hd_many). For wallets of one address the four checksum bytes must fit; that no wrong passphrase ever fits cannot be proved, since it would be a statement about AES and SHA-256 together."
 },
 "C155": {
  "note": "False of HD wallets: with a passphrase, the last 32 of the 48 bytes may be anything (C155_hd_false); without one, every other key of the range (C155_plain_false); the chain code is always taken (C155_chain_false). Proved: missing digits are noticed (C155_cut_partial), and a wallet of one address that opens holds a key with a right checksum (C155_address_partial)."
 },
 "C156": {
  "note": "False: the files are equal exactly if the keys are, and their first 16 (32) bytes exactly if the first 14 (30) bytes of the keys are (C156_hd_false). C156_blocks_partial says the same for every secret, block by block; that AES hides its input is not expressible here."
 },
 "C157": {
  "note": "Holds in Python 3 and above the level of debugging. False in Python 2: `_debug` shows a user agent or the text of a rejection as it is, and `str` of an alert the sub-versions, so a peer writes any line of its choice into the log. Tracebacks are not modelled."
 },
 "C158": {
  "note": "Proved for passphrases that neither begin nor end with white space (C158_typed_partial); exactly those whose first byte is not white can be typed at all (C158_typable, C158_white_false). False in Python 3 of text outside ASCII: the prompt encodes in latin-1, so a wallet saved with UTF-8 is decrypted with another key (C158_utf8_false), and letters from U+0100 on are refused (C158_alphabet_false)."
 },
 "C159": {
  "note": "False of the code for a clock set back (no heartbeat until it has caught up) and for one set forward by more than three hours (all connections closed); proved for readings within three hours."
 },
 "C160": {
  "note": "False for `unicode` in Python 2 and for `Address` in both versions; proved for Python 3 elsewhere."
 },
 "C161": {
  "note": "False of the code for self-connections under another address and for messages before the handshake; proved for the bound address."
 },
 "C162": {
  "note": "Partial: the keys are recovered; the addresses are not, as the virtual chain number of each child is drawn at random, and the same text as UTF-8 bytes is another seed."
 },
 "C163": {
  "note": "Partial: true of values that fit in the width; a wider value is not cut down to it."
 },
 "C164": {
  "note": "Partial: true in Python 2 and without interference; in Python 3 any connection added or removed during the walk raises RuntimeError, which in the heartbeat stops the node, and a moved dictionary hides a connection."
 },
 "C165": {
  "note": "Partial: the listener stays open while nobody connects; no connection is ever taken."
 },
 "C166": {
  "note": "Partial: true of classes derived from Message itself with a command of at most 12 characters of its own; the flag of the class itself is never looked at."
 },
 "C167": {
  "note": "Proved for an ip and a port other than 0 (C167_address_partial, C167_newbitcoin, C167_lasts), and for port 0 or no address where asyncore has __getattr__. False: on Python 3.11 a node without an address or with port 0 cannot be made; AddrInUseError is raised only on darwin (errno 48); a failing constructor leaves its socket open."
 },
 "C168": {
  "note": "Proved while there are files left (C168_spare_partial) and for small file numbers (C168_small). False: as many connections as there are files, from one peer, stop the node listening for good, whatever max_peers is; where more than 1024 files may be open, 1024 connections end the loop with an exception."
 },
 "C169": {
  "note": "Exact result of the unchecked call on every curve; equality of the accepted keys on the six curves; false on a curve of cofactor 3."
 },
 "C170": {
  "note": "Entries come only from punishments, one per ip; false: none is ever removed, and the table takes up any list of ips."
 },
 "C171": {
  "note": "Exact characterisation of the text, and injectivity; the mini-language of format is modelled for `,d` on integers."
 },
 "C172": {
  "note": "C172_saved: writing; C172_loaded: reading, with the exact difference in exceptions; C172_moves: both together through the text of the file."
 },
 "C173": {
  "note": "Python 2: C173_equal_partial, C173_order_partial, C173_alphabetical_partial, C173_keys_partial. False: in Python 3 objects of the same coin are different and cannot be sorted (C173_python3_false, exactly C173_keys_python3); coins with one name and different symbols (C173_symbol_false); comparison with something without a name raises in Python 2 (C173_other_false)."
 },
 "C174": {
  "note": "C174_life_partial: the whole way, with the exact condition on the key and the nonce. False: C174_watch_false, a new address whose published compressed key is refused (the defect of C26)."
 },
 "C175": {
  "note": "C175_tagged, C175_release, C175_order: names filled in; C175_shipped: the library as it is; C175_working_copy, C175_unpacked, C175_commands: names not filled in."
 },
 "C176": {
  "note": "C176_separate: blocks of different seeds or counters are alike only if SHA-256 has a collision. C176_unrelated: for every choice of scalars for all usable seeds of one kind there is a hash function with which both functions derive just these. C176_accepted, C176_order: exactly which seeds and orders are accepted. C176_utf8: text is hashed in UTF-8 in Python 3. C176_text_partial: text of ASCII characters has the same key in both Pythons. False otherwise: C176_pythons_false (a seed of bytes is hashed as its repr in Python 3: another key than in Python 2), C176_kinds_false (in Python 3 each seed of bytes has the key of the text that is its repr), C176_python2_false (Python 2 accepts only 128^n of the 256^n seeds os.urandom(n) may give)."
 },
 "C177": {
  "note": "C177_uniform (exactly uniform after any number of tries), C177_again (exact count of the sequences for which T tries are not enough), C177_average (exact average, range/(order-1) in the limit). C177_half_partial: the chance is at most one half if the bits of a try are as many as those of order-1. C177_half_false: bits_and_bytes counts them with a logarithm in floating point, which gives 257 for secp256k1 (one too many for all curves but NIST256p): there the chance is above one half. The numbers of bits are parameters of the model, because the logarithm is not modelled."
 },
 "C14": {
  "note": "lcm of nothing is a TypeError, and only then (C14_empty)."
 },
 "C178": {
  "note": "C178_made, C178_text and C178_same hold for every curve; C178_refused, C178_child and C178_shared give the outcome of each function."
 },
 "C179": {
  "note": "C179_public_partial and C179_private_partial prove everything but the last sentence; C179_read_partial says that the key is the one that stands in the text, C179_pem_partial is the same for PEM files, and C179_trailing_partial refuses a text as long as it claims with anything after it. The last sentence is false: the claimed length of the whole may be larger than what there is (C179_length_false), so that every public key on SECP256k1 is read from 42 texts (C179_forms_false), and what follows the curve in a private key is not read (C179_tail_false)."
 },
 "C180": {
  "note": "C180_extended, C180_address, C180_objects, C180_paths and C180_kinds; C180_lengths gives the lengths of private and partial keys; C180_refused and C180_combine say that texts of another kind given for private or partial keys are refused."
 },
 "C181": {
  "note": "C181_private_partial and C181_public_partial prove everything but the last sentence, for all wallets with fields in range (C51_paths: all derived ones); C181_paths_partial adds that for derived wallets an extended public key belongs to one private key, and C181_places and C181_siblings that a wallet, its ancestors and its siblings have different extended keys. The last sentence is false: the virtual chain number is not in the extended keys, so that wallets with the same extended keys have different addresses (C181_vcn_false)."
 }
}