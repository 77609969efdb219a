{"id": "C01", "title": "Base58 round trip", "statement": "b58decode(b58encode(v)) returns exactly v, for every byte string v, including the empty one and any number of leading zero bytes.", "quantifier": "every byte string v of any length", "why_tests_cant": "The input space is all byte strings; the leading-zero/empty corner cases interact with an unbounded big-number loop.", "anchors": ["nbc/util/base58.py:b58encode", "nbc/util/base58.py:b58decode", "nbc/util/base58.py:b58encode_int", "nbc/util/base58.py:b58decode_int"]}
{"id": "C02", "title": "Base58 text is canonical", "statement": "For every text s over the base58 alphabet b58decode(s) succeeds and b58encode(b58decode(s)) == s, so two different texts never decode to the same bytes; a text with a character outside the alphabet makes b58decode raise ValueError.", "quantifier": "every byte string s used as base58 text", "why_tests_cant": "Injectivity relates every pair of strings; the rejected set is infinite.", "anchors": ["nbc/util/base58.py:b58decode", "nbc/util/base58.py:b58encode"]}
{"id": "C03", "title": "Base58Check round trip and checksum enforcement", "statement": "decode_check(encode_check(v)) == v for every v; and whenever decode_check(s) returns a value r (not None), s is exactly encode_check(r): no text with a wrong checksum is ever accepted.", "quantifier": "every byte string v, every text s, every hash function with 32-byte output", "why_tests_cant": "Acceptance is a claim about all strings an attacker or a typo can produce.", "anchors": ["nbc/util/base58.py:encode_check", "nbc/util/base58.py:decode_check"]}
{"id": "C04", "title": "WIF export/import round trip", "statement": "For every 32-byte key k, privkey_from_wif(privkey_to_wif(k)) == k and privkey_from_wif(privkey_to_wif(k + 01)) == k; in particular the leading-character test ('5', or 'K'/'L') never rejects a genuine key.", "quantifier": "all 2^256 keys and every possible checksum value", "why_tests_cant": "The leading character depends on a 37/38-byte base conversion of key and checksum; no sample covers the extremes of every interval.", "anchors": ["nbc/util/key.py:privkey_to_wif", "nbc/util/key.py:privkey_from_wif"]}
{"id": "C05", "title": "WIF import accepts only genuine WIF text", "statement": "If privkey_from_wif(w) returns k then k has 32 bytes and w is exactly privkey_to_wif(k) or privkey_to_wif(k + 01); every other text raises.", "quantifier": "every text w", "why_tests_cant": "Soundness over all possible input texts.", "anchors": ["nbc/util/key.py:privkey_from_wif"]}
{"id": "C06", "title": "Addresses determine version, vcn and key hash", "statement": "pubkeyhash_to_address is injective: equal address texts imply equal version byte, equal vcn (mod 65536) and equal key hash, and decode_check of an address returns version + 4 lowercase hex digits of vcn + hash.", "quantifier": "every pair of (version byte, vcn integer incl. negative, 32-byte hash)", "why_tests_cant": "Injectivity over pairs of a 2^280-element domain.", "anchors": ["nbc/util/key.py:pubkeyhash_to_address", "nbc/util/key.py:publickey_to_address"]}
{"id": "C07", "title": "Fixed-width integer strings", "statement": "string_to_number(number_to_string(n, order)) == n and the result has exactly orderlen(order) bytes whenever 0 <= n < 256^orderlen(order); otherwise (n negative or too large) number_to_string raises. number_to_string(string_to_number(s), order) == s for every s of that length.", "quantifier": "every integer n, every order, every byte string s", "why_tests_cant": "Unbounded integers; the failure branch depends on parity of the hex length.", "anchors": ["nbc/util/ecdsa/util.py:number_to_string", "nbc/util/ecdsa/util.py:string_to_number", "nbc/util/ecdsa/curves.py:orderlen"]}
{"id": "C08", "title": "Modular inverse", "statement": "For every modulus m >= 2 and integer a, inverse_mod(a, m) returns i with 1 <= i < m and a*i = 1 (mod m) when gcd(a, m) = 1, and raises AssertionError when gcd(a, m) != 1.", "quantifier": "every integer a (incl. negative) and every modulus m >= 2", "why_tests_cant": "Euclid's loop has unbounded length; correctness is an invariant over all its steps.", "anchors": ["nbc/util/ecdsa/numbertheory.py:inverse_mod"]}
{"id": "C09", "title": "Jacobi symbol", "statement": "jacobi(a, n) equals the mathematical Jacobi symbol (a/n) for every odd n >= 3 and every integer a, and raises AssertionError for n < 3 or n even.", "quantifier": "every integer a, every n", "why_tests_cant": "Recursive algorithm relying on quadratic reciprocity; table tests sample it only.", "anchors": ["nbc/util/ecdsa/numbertheory.py:jacobi"]}
{"id": "C10", "title": "Modular square roots", "statement": "For every prime p and 0 <= a < p, square_root_mod_prime(a, p) returns y in [0, p) with y*y = a (mod p) if a is a square mod p and raises SquareRootError otherwise (all residue classes of p mod 8, including the polynomial branch).", "quantifier": "every prime p and every residue a", "why_tests_cant": "The code comment says it was tested for primes up to 1229 only; wallets use a 256-bit prime.", "anchors": ["nbc/util/ecdsa/numbertheory.py:square_root_mod_prime", "nbc/util/ecdsa/numbertheory.py:polynomial_exp_mod", "nbc/util/ecdsa/numbertheory.py:polynomial_multiply_mod", "nbc/util/ecdsa/numbertheory.py:polynomial_reduce_mod"]}
{"id": "C11", "title": "Primality test never rejects a prime", "statement": "is_prime(n) returns True for every prime n; for n <= 1229 it is exact; hence False means composite (or n < 2).", "quantifier": "every integer n", "why_tests_cant": "Infinitely many primes; the doc only reports a sampled range.", "anchors": ["nbc/util/ecdsa/numbertheory.py:is_prime", "nbc/util/ecdsa/numbertheory.py:smallprimes"]}
{"id": "C12", "title": "next_prime skips no prime", "statement": "If next_prime(x) returns r then r > x, is_prime(r) is True, and no prime lies strictly between x and r.", "quantifier": "every integer x", "why_tests_cant": "Every gap between primes.", "anchors": ["nbc/util/ecdsa/numbertheory.py:next_prime"]}
{"id": "C13", "title": "Factorization multiplies back", "statement": "factorization(n) terminates with strictly increasing bases, positive exponents and product n for every n >= 1; every base is prime, except possibly a last one that is_prime wrongly accepted.", "quantifier": "every positive integer n", "why_tests_cant": "Unbounded trial division loop.", "anchors": ["nbc/util/ecdsa/numbertheory.py:factorization"]}
{"id": "C14", "title": "gcd, lcm", "statement": "gcd2/gcd return the greatest common divisor and lcm2/lcm the least common multiple for all non-negative arguments (lcm2(0,0) raises ZeroDivisionError).", "quantifier": "all argument lists of naturals", "why_tests_cant": "Loop over unbounded integers.", "anchors": ["nbc/util/ecdsa/numbertheory.py:gcd2", "nbc/util/ecdsa/numbertheory.py:lcm2", "nbc/util/ecdsa/numbertheory.py:gcd", "nbc/util/ecdsa/numbertheory.py:lcm"]}
{"id": "C15", "title": "Multiplicative order", "statement": "order_mod(x, m) returns the least k >= 1 with x^k = 1 (mod m) whenever gcd(x, m) = 1 and m >= 2.", "quantifier": "every coprime pair x, m", "why_tests_cant": "The number of iterations is unbounded; arguments x >= m are legal.", "anchors": ["nbc/util/ecdsa/numbertheory.py:order_mod"]}
{"id": "C16", "title": "Point addition is the group law", "statement": "For every prime p > 3 and non-singular curve y^2=x^3+ax+b mod p, Point.__add__/double on curve points compute the elliptic-curve group operation (INFINITY as zero), with the single exception that doubling a point of order two through double() raises.", "quantifier": "every prime field, every non-singular curve, every pair of points", "why_tests_cant": "Infinitely many curves; several branches (equal x, opposite y, infinity).", "anchors": ["nbc/util/ecdsa/ellipticcurve.py:Point.__add__", "nbc/util/ecdsa/ellipticcurve.py:Point.double"]}
{"id": "C17", "title": "Scalar multiplication", "statement": "Point.__mul__ by e >= 0 returns e times the point in the group, for every e and point (of odd order), independently of whether the point object carries its order.", "quantifier": "every scalar of any size, every point", "why_tests_cant": "Signed-digit double-and-add over unboundedly many bits.", "anchors": ["nbc/util/ecdsa/ellipticcurve.py:Point.__mul__"]}
{"id": "C18", "title": "Only curve points can be built", "statement": "Point(curve, x, y) raises AssertionError when (x, y) is not on the curve, and every Point produced by +, *, double is on its curve.", "quantifier": "every curve and coordinates; every expression over points", "why_tests_cant": "All reachable Point objects.", "anchors": ["nbc/util/ecdsa/ellipticcurve.py:Point.__init__", "nbc/util/ecdsa/ellipticcurve.py:CurveFp.contains_point"]}
{"id": "C19", "title": "Declared point order is checked", "statement": "Point(curve, x, y, order) raises unless order times the point is INFINITY.", "quantifier": "every curve point and every claimed order", "why_tests_cant": "Relates the constructor to all of scalar multiplication.", "anchors": ["nbc/util/ecdsa/ellipticcurve.py:Point.__init__"]}
{"id": "C20", "title": "secp256k1 domain parameters", "statement": "The constants of SECP256k1 are sound: the field modulus and the group order are primes, the curve is non-singular, the generator is on it and its order is exactly the declared one.", "quantifier": "the 256-bit constants; minimality of the order ranges over all smaller scalars", "why_tests_cant": "Primality and exact order of 256-bit numbers cannot be tested exhaustively.", "anchors": ["nbc/util/ecdsa/ecdsa.py:generator_secp256k1", "nbc/util/ecdsa/curves.py:SECP256k1"]}
{"id": "C21", "title": "ECDSA signatures verify", "statement": "Whenever Private_key.sign(hash, k) returns (r, s), Public_key.verifies(hash, (r, s)) is True for the matching public key.", "quantifier": "every curve with prime-order generator, every secret, hash and nonce", "why_tests_cant": "All keys, messages and nonces; includes the case x(kG) >= n.", "anchors": ["nbc/util/ecdsa/ecdsa.py:Private_key.sign", "nbc/util/ecdsa/ecdsa.py:Public_key.verifies"]}
{"id": "C22", "title": "Out-of-range signatures are rejected", "statement": "verifies returns False for every (r, s) with r or s outside [1, n-1].", "quantifier": "all integers r, s and all hashes", "why_tests_cant": "Infinite input space; security boundary.", "anchors": ["nbc/util/ecdsa/ecdsa.py:Public_key.verifies"]}
{"id": "C23", "title": "Verification accepts exactly the ECDSA equation", "statement": "verifies(hash, (r, s)) is True iff 1 <= r,s < n and the x coordinate of (hash/s)G + (r/s)Q is congruent to r mod n; it raises when that sum is INFINITY.", "quantifier": "every generator of prime order, key point, hash, r, s", "why_tests_cant": "All signature pairs, including adversarial ones.", "anchors": ["nbc/util/ecdsa/ecdsa.py:Public_key.verifies"]}
{"id": "C24", "title": "sign/verify round trip at the byte level", "statement": "ecc.verify(data, pub, ecc.sign(data, priv)) is True for every message, every 32-byte private key in [1, n-1] and every random nonce used inside sign, for both the compressed and the uncompressed public key.", "quantifier": "every message, key and nonce; every hash function with 32-byte output", "why_tests_cant": "Composition of hashing, DER, point arithmetic and square roots for 2^256 keys and nonces.", "anchors": ["nbc/util/ecc.py:sign", "nbc/util/ecc.py:verify", "nbc/util/ecdsa/keys.py:SigningKey.sign_digest", "nbc/util/ecdsa/keys.py:VerifyingKey.verify_digest"]}
{"id": "C25", "title": "verify never raises on attacker-supplied input", "statement": "ecc.verify returns True or False (does not raise) for every public_key and signature byte string.", "quantifier": "every pair of byte strings", "why_tests_cant": "The space of malformed inputs is infinite.", "anchors": ["nbc/util/ecc.py:verify", "nbc/util/ecc.py:remove_integer", "nbc/util/key.py:decompress_public_key"]}
{"id": "C26", "title": "Public key compression is lossless", "statement": "decompress_public_key(compress_public_key(K)) == K for every valid uncompressed secp256k1 key K, and compress(decompress(c)) == c whenever decompress accepts the compressed key c.", "quantifier": "every secp256k1 point with coordinates below n; every 33-byte string", "why_tests_cant": "2^256 points; depends on parity and modular square roots.", "anchors": ["nbc/util/key.py:compress_public_key", "nbc/util/key.py:decompress_public_key"]}
{"id": "C27", "title": "decompress only yields curve points", "statement": "Whenever decompress_public_key returns K, K is 0x04 + 64 bytes encoding a point of the curve whose n-multiple is INFINITY and with the same x as the input.", "quantifier": "every byte string", "why_tests_cant": "All possible inputs from the network.", "anchors": ["nbc/util/key.py:decompress_public_key", "nbc/util/ecdsa/ecdsa.py:point_is_valid"]}
{"id": "C28", "title": "ECDH agreement", "statement": "shared_secret(pubA, wifB) == shared_secret(pubB, wifA) for key pairs A, B.", "quantifier": "every pair of private keys", "why_tests_cant": "All pairs of 256-bit keys.", "anchors": ["nbc/util/ecc.py:shared_secret"]}
{"id": "C29", "title": "DER signatures round trip", "statement": "Both DER signature decoders applied to sigencode_der(r, s) return (r, s), for all r, s that fit the curve order.", "quantifier": "every pair of non-negative integers below 2^1015", "why_tests_cant": "Length/sign-byte corner cases at every size.", "anchors": ["nbc/util/ecdsa/util.py:sigencode_der", "nbc/util/ecdsa/util.py:sigdecode_der", "nbc/util/ecc.py:sigdecode_der", "nbc/util/ecdsa/der.py:encode_integer"]}
{"id": "C30", "title": "DER primitives round trip", "statement": "read_length/encode_length, read_number/encode_number, remove_X/encode_X (sequence, octet string, bit string, constructed, object id, integer) are inverse and leave any trailing bytes untouched.", "quantifier": "every length, number, body, object id and trailing suffix", "why_tests_cant": "Unbounded lengths; short/long form boundary.", "anchors": ["nbc/util/ecdsa/der.py"]}
{"id": "C31", "title": "DER integers of any size", "statement": "remove_integer(encode_integer(r) + rest) == (r, rest) for every r >= 0.", "quantifier": "every non-negative integer", "why_tests_cant": "The single-byte length breaks only from 128-byte integers on; tests use curve-sized numbers.", "anchors": ["nbc/util/ecdsa/der.py:encode_integer", "nbc/util/ecdsa/der.py:remove_integer"]}
{"id": "C32", "title": "Random scalars are in range", "statement": "randrange(order) returns k with 1 <= k < order, or raises after 10000 rejected candidates, for every entropy source.", "quantifier": "every order > 1 and every sequence of entropy outputs", "why_tests_cant": "All outputs of the random source.", "anchors": ["nbc/util/ecdsa/util.py:randrange"]}
{"id": "C33", "title": "Deterministic nonces are in range and reproducible", "statement": "rfc6979.generate_k, when it returns, returns k in [1, order-1] and depends only on its arguments; the first accepted candidate is the same under Python 2 and Python 3 division.", "quantifier": "every HMAC function, order, secret and digest", "why_tests_cant": "Unbounded rejection loop.", "anchors": ["nbc/util/ecdsa/rfc6979.py:generate_k", "nbc/util/ecdsa/rfc6979.py:bits2int", "nbc/util/ecdsa/rfc6979.py:bits2octets"]}
{"id": "C34", "title": "Canonical signatures have low s", "statement": "sigencode_*_canonize emits s <= order/2 for every signature.", "quantifier": "every s in [1, n-1]", "why_tests_cant": "The comparison goes through a float; only values in a narrow band reveal it.", "anchors": ["nbc/util/ecdsa/util.py:sigencode_strings_canonize", "nbc/util/ecdsa/util.py:sigencode_der_canonize"]}
{"id": "C35", "title": "Keys survive DER export/import", "statement": "SigningKey.from_der(sk.to_der()) and VerifyingKey.from_der(vk.to_der()) restore the same key on the same curve.", "quantifier": "every curve in the table and every key", "why_tests_cant": "All keys; nested DER lengths.", "anchors": ["nbc/util/ecdsa/keys.py:SigningKey.to_der", "nbc/util/ecdsa/keys.py:SigningKey.from_der", "nbc/util/ecdsa/keys.py:VerifyingKey.to_der", "nbc/util/ecdsa/keys.py:VerifyingKey.from_der"]}
{"id": "C36", "title": "AES decryption inverts encryption", "statement": "For every 16/24/32-byte key and 16-byte block, AES(key).decrypt(AES(key).encrypt(block)) == block.", "quantifier": "all keys of the three sizes and all blocks", "why_tests_cant": "2^384 key/block pairs; a single wrong entry of 17 lookup tables affects a tiny fraction.", "anchors": ["nbc/util/pyaes/aes.py:AES.__init__", "nbc/util/pyaes/aes.py:AES.encrypt", "nbc/util/pyaes/aes.py:AES.decrypt"]}
{"id": "C37", "title": "AES is FIPS-197 AES", "statement": "AES(key).encrypt computes the FIPS-197 cipher (SubBytes, ShiftRows, MixColumns, AddRoundKey, KeyExpansion over GF(2^8)) for every key and block.", "quantifier": "all keys and blocks", "why_tests_cant": "Known-answer vectors touch only some table entries.", "anchors": ["nbc/util/pyaes/aes.py:AES"]}
{"id": "C38", "title": "Cipher modes round trip", "statement": "For ECB, CBC, CFB (segment size <= 16), OFB and CTR, decrypting the chunks produced by encrypting any sequence of chunks, with a fresh object of the same key/IV, returns the plaintext.", "quantifier": "every key, IV and sequence of chunks", "why_tests_cant": "Stateful objects: claim ranges over all call histories.", "anchors": ["nbc/util/pyaes/aes.py:AESModeOfOperationCBC", "nbc/util/pyaes/aes.py:AESModeOfOperationCFB", "nbc/util/pyaes/aes.py:AESModeOfOperationOFB", "nbc/util/pyaes/aes.py:AESModeOfOperationCTR", "nbc/util/pyaes/aes.py:AESModeOfOperationECB"]}
{"id": "C39", "title": "Stream modes ignore chunk boundaries", "statement": "For OFB and CTR (and CFB on segment-aligned chunks) the concatenated output depends only on the concatenated input, not on how it was split over calls.", "quantifier": "every split of every input", "why_tests_cant": "All histories of calls.", "anchors": ["nbc/util/pyaes/aes.py:AESModeOfOperationOFB.encrypt", "nbc/util/pyaes/aes.py:AESModeOfOperationCTR.encrypt"]}
{"id": "C40", "title": "CTR counter", "statement": "Counter.increment adds one modulo 2^128 to the big-endian counter, and Counter(v) starts at v mod 2^128, so 2^128 consecutive blocks use distinct counter values.", "quantifier": "every counter state", "why_tests_cant": "Carry chains of every length and the overflow.", "anchors": ["nbc/util/pyaes/aes.py:Counter"]}
{"id": "C41", "title": "Feeder round trip", "statement": "Feeding a message in arbitrary chunks through Encrypter and the result in arbitrary chunks through Decrypter returns the message (padding included), for block and stream modes.", "quantifier": "every message, every split on both sides", "why_tests_cant": "Buffering keeps up to 31 bytes; all chunkings matter.", "anchors": ["nbc/util/pyaes/blockfeeder.py:BlockFeeder.feed", "nbc/util/pyaes/util.py:append_PKCS7_padding", "nbc/util/pyaes/util.py:strip_PKCS7_padding"]}
{"id": "C42", "title": "PKCS7 padding", "statement": "strip_PKCS7_padding(append_PKCS7_padding(d)) == d, and data whose padding is malformed is rejected.", "quantifier": "every byte string", "why_tests_cant": "All lengths modulo 16; malformed pads are an infinite set.", "anchors": ["nbc/util/pyaes/util.py"]}
{"id": "C43", "title": "Passphrase encryption round trip", "statement": "Decrypting a wallet secret with the passphrase it was encrypted with returns the secret followed only by zero padding, for every non-empty passphrase.", "quantifier": "every secret shorter than 240 bytes, every passphrase", "why_tests_cant": "All lengths of text and passphrase.", "anchors": ["nbc/wallet/address.py:_aesEncrypt", "nbc/wallet/address.py:_aesDecrypt"]}
{"id": "C44", "title": "Distinct passphrases protect differently", "statement": "A wallet saved under one passphrase cannot be opened with a different passphrase.", "quantifier": "every pair of distinct passphrases", "why_tests_cant": "Pairs of arbitrary-length passphrases (truncation at 16 bytes).", "anchors": ["nbc/wallet/address.py:_aesEncrypt"]}
{"id": "C45", "title": "Address wallets survive save/load", "statement": "Address.load_from_cfg(a.dump_to_cfg(pw), pw) is a wallet with the same keys, vcn, network, compression flag and address as a.", "quantifier": "every wallet (private or watch-only), every passphrase", "why_tests_cant": "All keys and configurations.", "anchors": ["nbc/wallet/address.py:Address.dump_to_cfg", "nbc/wallet/address.py:Address.load_from_cfg"]}
{"id": "C46", "title": "HD wallets survive save/load", "statement": "HDWallet.load_from_cfg(w.dump_to_cfg(pw), pw) has the same key, chain code, vcn, network, depth, parent fingerprint and child number as w.", "quantifier": "every private or public HD wallet, every passphrase", "why_tests_cant": "All keys; the public branch depends on the parity of a modular square root.", "anchors": ["nbc/wallet/hdwallet.py:HDWallet.dump_to_cfg", "nbc/wallet/hdwallet.py:HDWallet.load_from_cfg", "nbc/wallet/hdwallet.py:point_decompress"]}
{"id": "C47", "title": "Public and private derivation agree", "statement": "For a non-hardened index, the public key of w.child(i) equals the key of (public part of w).child(i), with the same chain code, and the public branch fails exactly when the private one does.", "quantifier": "every wallet, every index below 2^31, every HMAC function", "why_tests_cant": "All keys and indices; relies on the group homomorphism.", "anchors": ["nbc/wallet/hdwallet.py:HDWallet.child"]}
{"id": "C48", "title": "Child derivation is deterministic", "statement": "Deriving the same child twice gives the same wallet, including the same address.", "quantifier": "every wallet and index", "why_tests_cant": "Hidden randomness appears only across runs.", "anchors": ["nbc/wallet/hdwallet.py:HDWallet.child", "nbc/wallet/hdwallet.py:HDWallet.__init__"]}
{"id": "C49", "title": "Hardened derivation needs the private key; depth is bounded", "statement": "child(i) with i >= 2^31 raises on a public wallet; child raises beyond depth 255; every wallet reachable by derivation has depth <= 255 and a private key in [1, n-1] if any.", "quantifier": "every derivation path from every master wallet", "why_tests_cant": "All paths.", "anchors": ["nbc/wallet/hdwallet.py:HDWallet.child"]}
{"id": "C50", "title": "Extended keys can be re-imported", "statement": "HDWallet.from_extended_key(w.to_extended_key(...)) restores w.", "quantifier": "every wallet, both variants", "why_tests_cant": "All keys.", "anchors": ["nbc/wallet/hdwallet.py:HDWallet.to_extended_key", "nbc/wallet/hdwallet.py:HDWallet.from_extended_key"]}
{"id": "C51", "title": "Extended key layout", "statement": "to_extended_key encodes exactly the BIP32 78-byte record (version, depth, parent fingerprint, child number, chain code, key) with its checksum, from which every field can be recovered, and a public export of a wallet reveals no private key bytes.", "quantifier": "every wallet", "why_tests_cant": "All field values.", "anchors": ["nbc/wallet/hdwallet.py:HDWallet.to_extended_key"]}
{"id": "C52", "title": "Address compress/decompress", "statement": "compress() and decompress() keep the key pair, vcn and network, a.compress().decompress() has the same keys and address as an uncompressed a, and sign/verify work across the two forms.", "quantifier": "every Address", "why_tests_cant": "All keys.", "anchors": ["nbc/wallet/address.py:Address.compress", "nbc/wallet/address.py:Address.decompress"]}
{"id": "C53", "title": "Generated wallets are usable", "statement": "Address.generate always yields an Address whose private key lies in [1, n-1], whose publicKey matches it and whose address is the one derived from that public key.", "quantifier": "every random draw", "why_tests_cant": "All random draws.", "anchors": ["nbc/wallet/address.py:Address.generate", "nbc/wallet/address.py:Address.__init__"]}
{"id": "C54", "title": "Saving is atomic with respect to crashes", "statement": "If saveTo is interrupted at any point the file still holds either the old or the new wallet; if dumping fails the old file is untouched.", "quantifier": "every crash point inside saveTo, every previous file content", "why_tests_cant": "Crash points cannot be enumerated by unit tests.", "anchors": ["nbc/wallet/__init__.py:saveTo", "nbc/wallet/__init__.py:loadFrom"]}
{"id": "C55", "title": "Split keys recombine", "statement": "combine_private_keys(split_private_key(k, count)) == k for every count and every random choice.", "quantifier": "every key below n, every count, every random draw", "why_tests_cant": "All random draws and counts.", "anchors": ["nbc/util/piecewise.py:split_private_key", "nbc/util/piecewise.py:combine_private_keys"]}
{"id": "C56", "title": "Combined private key matches combined public key", "statement": "The public point of combine_private_keys([A, B]) is the sum of the public points of A and B.", "quantifier": "every list of keys", "why_tests_cant": "Group homomorphism over all keys.", "anchors": ["nbc/util/piecewise.py:combine_private_keys", "nbc/util/piecewise.py:get_address"]}
{"id": "C57", "title": "Any m of N partial key sets recover the key", "statement": "For the groups returned by partial_split_private_key(k, required, total), the keys of any `required` groups passed to partial_combine_private_keys give back k.", "quantifier": "every key, 1 <= required <= total <= 255, every subset of groups, every random draw", "why_tests_cant": "Combinatorial choice of subsets.", "anchors": ["nbc/util/piecewise.py:partial_split_private_key", "nbc/util/piecewise.py:partial_combine_private_keys"]}
{"id": "C58", "title": "Partial keys start with 6C", "statement": "Every key produced by partial_split_private_key starts with the characters 6C.", "quantifier": "every index, required, checksum and 32-byte key", "why_tests_cant": "2^304 payloads.", "anchors": ["nbc/util/piecewise.py:partial_split_private_key"]}
{"id": "C59", "title": "Variable integers round trip", "statement": "FtVarInteger.parse(FtVarInteger.binary(n) + rest) == (encoded length, n) for every n in [0, 2^64).", "quantifier": "every n below 2^64, every trailing data", "why_tests_cant": "The broken range starts at 2^32-1; tests use small counts.", "anchors": ["nbc/protocol/format.py:FtVarInteger.binary", "nbc/protocol/format.py:FtVarInteger.parse"]}
{"id": "C60", "title": "Numeric fields round trip", "statement": "For each of the 8 integer formats and both byte orders, parse(binary(v) + rest) == (size, v) for every validated v; validate accepts exactly the representable range; float timestamps are truncated.", "quantifier": "every format, every value in range, every trailing data", "why_tests_cant": "Ranges up to 2^64.", "anchors": ["nbc/protocol/format.py:FtNumber"]}
{"id": "C61", "title": "IP addresses round trip", "statement": "For every 16-byte address, binary(parse(b)) == b, for IPv4-mapped and IPv6 addresses alike; for dotted quads parse(binary(text)) == canonical text.", "quantifier": "all 2^128 addresses", "why_tests_cant": "2^128 values with text formatting/parsing.", "anchors": ["nbc/protocol/format.py:FtIPAddress"]}
{"id": "C62", "title": "Validated values can be serialised", "statement": "If a property type's validate accepts a value, binary of that value succeeds.", "quantifier": "every field type and every value", "why_tests_cant": "Inputs are arbitrary Python values/strings.", "anchors": ["nbc/protocol/format.py:FtIPAddress.validate", "nbc/protocol/format.py:FtVarInteger.validate", "nbc/protocol/format.py:CompoundType.__init__"]}
{"id": "C63", "title": "Messages survive the wire", "statement": "Message.parse(m.binary(magic), magic) returns a message of the same type with the same field values, for each registered message type and every well-formed m.", "quantifier": "every message type, every field value, every magic and hash function", "why_tests_cant": "Nested variable-length structures of unbounded size.", "anchors": ["nbc/protocol/messages.py:Message.binary", "nbc/protocol/messages.py:Message.parse", "nbc/protocol/format.py:CompoundType.parse"]}
{"id": "C64", "title": "Corrupted frames are rejected", "statement": "Message.parse raises MsgFormatError when the magic differs or the checksum field does not match the payload, and UnknownMsgError for an unregistered command; it never returns a message in those cases.", "quantifier": "every byte string", "why_tests_cant": "All corruptions.", "anchors": ["nbc/protocol/messages.py:Message.parse"]}
{"id": "C65", "title": "Truncated payloads are rejected", "statement": "Parsing a payload that is shorter than its fields require raises instead of returning a message.", "quantifier": "every message type and truncated payload", "why_tests_cant": "All truncation points.", "anchors": ["nbc/protocol/format.py:FtBytes.parse", "nbc/protocol/format.py:FtVarString.parse"]}
{"id": "C66", "title": "Parsing work is bounded by the payload", "statement": "The number of array elements Message.parse materialises is at most linear in the payload length.", "quantifier": "every payload", "why_tests_cant": "Adversarial counts.", "anchors": ["nbc/protocol/format.py:parse_var_set"]}
{"id": "C67", "title": "TCP segmentation does not matter", "statement": "The sequence of frames handled by a Connection depends only on the bytes received, not on how recv splits them, and no byte is lost, duplicated or reordered.", "quantifier": "every byte stream and every segmentation", "why_tests_cant": "All schedules of recv.", "anchors": ["nbc/node/connection.py:Connection.handle_read", "nbc/protocol/messages.py:Message.first_msg_len"]}
{"id": "C68", "title": "A bad frame does not stop the connection", "statement": "After any frame (bad magic, bad checksum, unknown command, handler exception) the frames that follow it in the stream are still processed, and handle_read never raises and always terminates.", "quantifier": "every received stream", "why_tests_cant": "All adversarial streams.", "anchors": ["nbc/node/connection.py:Connection.handle_read"]}
{"id": "C69", "title": "Output is sent in order exactly once", "statement": "The bytes written to the socket are always a prefix of the concatenation of the frames queued by send_message, whatever the partial-send behaviour. The connection asks to write exactly when something is queued, and as soon as the socket has taken as many bytes as were queued all of them are sent.", "quantifier": "every interleaving of send_message and handle_write, every partial send size", "why_tests_cant": "All schedules.", "anchors": ["nbc/node/connection.py:Connection.handle_write", "nbc/node/connection.py:Connection.send_message"]}
{"id": "C70", "title": "Byte accounting", "statement": "The node's rx/tx totals equal the sum over all connections ever opened of their own counters, and a connection's rx counter equals the bytes received.", "quantifier": "every history of reads and writes on every set of connections", "why_tests_cant": "All histories.", "anchors": ["nbc/node/connection.py:Connection.handle_read", "nbc/node/connection.py:Connection.handle_write"]}
{"id": "C71", "title": "Address book is bounded", "statement": "The node never stores more than MAX_ADDRESSES (2500) peer addresses.", "quantifier": "every history of messages from any peers", "why_tests_cant": "All histories; off-by-one only visible at the limit.", "anchors": ["nbc/node/basenode.py:BaseNode.command_address", "nbc/node/basenode.py:BaseNode.command_version_ack"]}
{"id": "C72", "title": "getaddr replies", "statement": "The reply to getaddr has at most 1000 entries, each taken from the address book with known services, and no omitted known entry is more recent than an included one.", "quantifier": "every address book", "why_tests_cant": "All books.", "anchors": ["nbc/node/basenode.py:BaseNode.command_get_address"]}
{"id": "C73", "title": "Ping is answered by the matching pong", "statement": "A received ping with an 8-byte nonce queues exactly one pong frame carrying the same nonce and nothing else.", "quantifier": "every nonce, every state", "why_tests_cant": "All nonces/states.", "anchors": ["nbc/node/basenode.py:BaseNode.command_ping", "nbc/node/connection.py:Connection.handle_message"]}
{"id": "C74", "title": "Banned peers stay out", "statement": "A peer punished beyond the limit cannot reconnect within one hour.", "quantifier": "every history of punishments and reconnections", "why_tests_cant": "Time-dependent histories.", "anchors": ["nbc/node/basenode.py:BaseNode.punish_peer", "nbc/node/basenode.py:BaseNode.handle_accept"]}
{"id": "C75", "title": "Ban score", "statement": "Ban scores never go negative and a peer is closed and banned exactly when its score exceeds 5.", "quantifier": "every history of punish and heartbeat", "why_tests_cant": "All histories.", "anchors": ["nbc/node/connection.py:Connection.add_banscore", "nbc/node/connection.py:Connection.reduce_banscore", "nbc/node/basenode.py:BaseNode.punish_peer"]}
{"id": "C76", "title": "External IP is a plurality answer", "statement": "After a version message the guessed external ip is an address reported by a maximal number of the current peers (ties: greatest).", "quantifier": "every multiset of peer reports", "why_tests_cant": "All vote profiles.", "anchors": ["nbc/node/basenode.py:BaseNode._check_external_ip"]}
{"id": "C77", "title": "Peer limit and duplicates", "statement": "add_peer never creates a second connection to an address already connected nor to the node itself, and with force=False never exceeds max_peers.", "quantifier": "every history of add/accept/close", "why_tests_cant": "All histories.", "anchors": ["nbc/node/basenode.py:BaseNode.add_peer", "nbc/node/basenode.py:BaseNode.handle_accept"]}
{"id": "C78", "title": "Idle connections", "statement": "A connection silent for more than 3 hours is closed at the next poll; a ping is queued only after 30 minutes without sending and at most once every 5 minutes.", "quantifier": "every clock history", "why_tests_cant": "All timings.", "anchors": ["nbc/node/connection.py:Connection.readable"]}
{"id": "C79", "title": "Protocol version numbers", "statement": "get_version(make_version(a,b,c,d)) == (a,b,c,d) for all accepted arguments, and make_version(*get_version(v)) == v for every integer v.", "quantifier": "all integers", "why_tests_cant": "Infinite domain incl. negatives.", "anchors": ["nbc/util/__init__.py:get_version", "nbc/util/__init__.py:make_version"]}
{"id": "C80", "title": "Merkle root binds the transactions", "statement": "Two transaction lists with the same Merkle root are equal (for a collision-free hash).", "quantifier": "every pair of lists", "why_tests_cant": "All list pairs, incl. duplicated tails.", "anchors": ["nbc/util/__init__.py:get_merkle_root"]}
{"id": "C81", "title": "Proof-of-work target comparison", "statement": "For compact bits with exponent 3..32, comparing a 32-byte big-endian hash with get_target(bits) as strings is the numeric comparison hash <= target.", "quantifier": "every bits value and every hash", "why_tests_cant": "2^288 pairs; overflow of the 64-digit format.", "anchors": ["nbc/util/__init__.py:get_target", "nbc/util/__init__.py:verify_target"]}
{"id": "C82", "title": "Block header bytes", "statement": "get_block_header(...) equals the first 80 bytes of BlockHeader(...).binary() for all field values, so the block hash does not depend on the transaction count.", "quantifier": "all field values", "why_tests_cant": "All headers.", "anchors": ["nbc/util/__init__.py:get_block_header", "nbc/protocol/format.py:BlockHeader"]}
{"id": "C83", "title": "Euler totient", "statement": "phi(n) is the number of residues below n coprime to n, for every n >= 1 none of whose composite divisors is accepted by is_prime.", "quantifier": "every positive integer n", "why_tests_cant": "Infinite domain; depends on the factorization loop.", "anchors": ["nbc/util/ecdsa/numbertheory.py:phi"]}
{"id": "C84", "title": "Carmichael function", "statement": "carmichael(n) is the least exponent c >= 1 with x^c = 1 (mod n) for all x coprime to n (n >= 1 none of whose composite divisors is accepted by is_prime).", "quantifier": "every positive integer n", "why_tests_cant": "Quantifies over all residues of all moduli.", "anchors": ["nbc/util/ecdsa/numbertheory.py:carmichael", "nbc/util/ecdsa/numbertheory.py:carmichael_of_ppower"]}
{"id": "C85", "title": "Largest factor relatively prime", "statement": "largest_factor_relatively_prime(a, b) divides a, is coprime to b, and every divisor of a coprime to b divides it.", "quantifier": "every a >= 1 and b >= 0", "why_tests_cant": "Nested loops of unbounded length.", "anchors": ["nbc/util/ecdsa/numbertheory.py:largest_factor_relatively_prime"]}
{"id": "C86", "title": "Equal points compare equal", "statement": "Two Point objects of one curve obtained by +, * and double() compare equal with == exactly when they are the same point of the group.", "quantifier": "every curve, every pair of expressions over points", "why_tests_cant": "Depends on intermediate results passing through INFINITY for particular scalars.", "anchors": ["nbc/util/ecdsa/ellipticcurve.py:Point.__eq__", "nbc/util/ecdsa/ellipticcurve.py:Point.__mul__"]}
{"id": "C87", "title": "Seeded scalars are in range", "statement": "randrange_from_seed__overshoot_modulo returns, for every seed and every order above one, a scalar in [1, order-1]; randrange_from_seed__trytryagain only ever returns such scalars; PRNG output does not depend on how it is cut into requests.", "quantifier": "every seed, order and hash function", "why_tests_cant": "All seeds and orders.", "anchors": ["nbc/util/ecdsa/util.py:PRNG", "nbc/util/ecdsa/util.py:randrange_from_seed__overshoot_modulo", "nbc/util/ecdsa/util.py:randrange_from_seed__trytryagain"]}
{"id": "C88", "title": "Canonising a signature keeps it valid", "statement": "Public_key.verifies gives the same answer for (r, s) and (r, n - s), so the canonical encoders never turn a valid signature into an invalid one or the reverse.", "quantifier": "every curve with prime order, key, hash, r and s", "why_tests_cant": "All signatures; needs the group law.", "anchors": ["nbc/util/ecdsa/ecdsa.py:Public_key.verifies", "nbc/util/ecdsa/util.py:sigencode_der_canonize"]}
{"id": "C89", "title": "Domain parameters of all six curves", "statement": "For every curve of curves.curves the field modulus and the order are primes, the curve is non-singular, the generator is on the curve and its order is the declared one.", "quantifier": "the six curves (each a statement about all scalars)", "why_tests_cant": "Primality and minimality of 192- to 521-bit numbers.", "anchors": ["nbc/util/ecdsa/curves.py:curves", "nbc/util/ecdsa/ecdsa.py:generator_192"]}
{"id": "C90", "title": "The modes of operation are the standard ones", "statement": "ECB, CBC, CFB (segments of up to 16 bytes), OFB and CTR encryption produce the ciphertext that NIST SP 800-38A defines over the AES block function, however OFB and CTR input is split over calls.", "quantifier": "every key, IV, counter and message", "why_tests_cant": "All keys and messages of any length.", "anchors": ["nbc/util/pyaes/aes.py:AESModeOfOperationCBC", "nbc/util/pyaes/aes.py:AESModeOfOperationCFB", "nbc/util/pyaes/aes.py:AESModeOfOperationOFB", "nbc/util/pyaes/aes.py:AESModeOfOperationCTR"]}
{"id": "C91", "title": "Vanity addresses match the combined key", "statement": "get_address(public key of A, B) returns the address of the private key combine_private_keys([A, B]).", "quantifier": "every pair of keys", "why_tests_cant": "All keys; relies on the group homomorphism.", "anchors": ["nbc/util/piecewise.py:get_address"]}
{"id": "C92", "title": "Keys survive PEM", "statement": "unpem(topem(der, name)) == der for all bytes; unpem does not depend on how the base64 lines are wrapped or indented; a signing key or verifying key on any supported curve survives to_pem/from_pem, also with an EC PARAMETERS section before the key.", "quantifier": "every byte string, label, wrapping, curve and key", "why_tests_cant": "All keys, texts and line widths.", "anchors": ["nbc/util/ecdsa/der.py:topem", "nbc/util/ecdsa/der.py:unpem", "nbc/util/ecdsa/keys.py:SigningKey.from_pem", "nbc/util/ecdsa/keys.py:VerifyingKey.from_pem"]}
{"id": "C93", "title": "Integers as octet strings", "statement": "int_to_string writes every non-negative integer big-endian without leading zero bytes and refuses negative ones; string_to_int is its inverse. digest_integer is the SHA-1 of these bytes as a number below 2^160.", "quantifier": "every integer and every byte string", "why_tests_cant": "Unbounded integers.", "anchors": ["nbc/util/ecdsa/ecdsa.py:int_to_string", "nbc/util/ecdsa/ecdsa.py:string_to_int"]}
{"id": "C94", "title": "Fixed-width signature formats", "statement": "sigencode_string(s) writes r and s big-endian in exactly the width of the order; the matching decoder returns them, refuses every other width, and accepts nothing that the encoder would not write.", "quantifier": "every order, every r and s below 256**width, every byte string", "why_tests_cant": "All signatures and all malformed inputs.", "anchors": ["nbc/util/ecdsa/util.py:sigencode_string", "nbc/util/ecdsa/util.py:sigdecode_string", "nbc/util/ecdsa/util.py:sigencode_strings", "nbc/util/ecdsa/util.py:sigdecode_strings"]}
{"id": "C95", "title": "Signed data verifies", "statement": "SigningKey.sign(data) verifies under the key's verifying key with the same hash function, for each of the six encoders with its decoder, with a random or a given nonce; digests longer than the order are refused on both sides.", "quantifier": "every curve of the table, key, hash function, data and nonce", "why_tests_cant": "All keys, messages and nonces; the failing nonces are one in 2**128.", "anchors": ["nbc/util/ecdsa/keys.py:SigningKey.sign", "nbc/util/ecdsa/keys.py:VerifyingKey.verify", "nbc/util/ecdsa/keys.py:SigningKey.sign_digest"]}
{"id": "C96", "title": "Deterministic signatures follow RFC 6979", "statement": "sign_deterministic uses exactly the nonce RFC 6979 defines, always returns the same signature for the same key and data, and that signature verifies.", "quantifier": "every order, key, hash function and message", "why_tests_cant": "All keys and messages, including those that need a second candidate.", "anchors": ["nbc/util/ecdsa/rfc6979.py:generate_k", "nbc/util/ecdsa/keys.py:SigningKey.sign_deterministic", "nbc/util/ecdsa/keys.py:SigningKey.sign_digest_deterministic"]}
{"id": "C97", "title": "A reloaded key keeps its default hash function", "statement": "A key written to PEM or DER and read back signs and verifies with the same default hash function.", "quantifier": "every curve, key and default hash function", "why_tests_cant": "All combinations of key and hash function.", "anchors": ["nbc/util/ecdsa/keys.py:VerifyingKey.from_pem", "nbc/util/ecdsa/keys.py:SigningKey.from_pem"]}
{"id": "C98", "title": "Peers cannot stop the node", "statement": "Whatever peers send, the node's event loop goes on: the calls asyncore makes outside of its exception handlers do not raise, and the listener stays open.", "quantifier": "every history of incoming and outgoing connections, bytes in any pieces, polls, heartbeats and calls of the owner", "why_tests_cant": "All interleavings of events and all bytes.", "anchors": ["nbc/node/basenode.py:BaseNode.items", "nbc/node/basenode.py:BaseNode.handle_accept", "nbc/node/connection.py:Connection.readable", "nbc/node/connection.py:Connection.__init__"]}
{"id": "C99", "title": "add_peer tells the truth", "statement": "add_peer returns True exactly when it made a connection, which then has the version message queued; when it returns False the open connections are those there were before.", "quantifier": "every state of the node, every address, with and without force, whether or not connect succeeds", "why_tests_cant": "All states and addresses.", "anchors": ["nbc/node/basenode.py:BaseNode.add_peer", "nbc/node/connection.py:Connection.__init__"]}
{"id": "C100", "title": "Nothing is sent before the version message", "statement": "The first message on every open connection, in either direction of connecting, is the node's version message, naming the address of the peer.", "quantifier": "every history", "why_tests_cant": "All interleavings of connecting, heartbeats and received messages.", "anchors": ["nbc/node/connection.py:Connection.__init__", "nbc/node/basenode.py:BaseNode.heartbeat", "nbc/node/basenode.py:BaseNode.add_any_peer"]}
{"id": "C101", "title": "The heartbeat keeps to its limits", "statement": "Two heartbeats are more than ten seconds apart; one makes at most five connections and never goes beyond seek_peers; it asks one peer for addresses exactly when fewer than 50 are known and sends nothing else to the connections there are.", "quantifier": "every state, clock reading, random choice and outcome of connecting", "why_tests_cant": "All states and histories between two heartbeats.", "anchors": ["nbc/node/basenode.py:BaseNode.heartbeat", "nbc/node/basenode.py:BaseNode.items", "nbc/node/basenode.py:BaseNode.add_any_peer"]}
{"id": "C102", "title": "Receive buffers are bounded", "statement": "What a connection keeps of an incomplete message is bounded by the size of the largest message the protocol has.", "quantifier": "every history, every sequence of bytes", "why_tests_cant": "Needs gigabytes of input; all byte streams.", "anchors": ["nbc/node/connection.py:Connection.handle_read", "nbc/protocol/format.py:Message.first_msg_len"]}
{"id": "C103", "title": "Misbehaving peers get banned", "statement": "A peer that keeps sending malformed messages gets a ban score and is banned in the end.", "quantifier": "every history", "why_tests_cant": "A negative claim about all histories: no sequence of messages, however bad, raises a score.", "anchors": ["nbc/node/basenode.py:BaseNode.punish_peer", "nbc/node/connection.py:Connection.handle_read"]}
{"id": "C104", "title": "Every known address is tried", "statement": "add_any_peer, called again and again, connects to every address in the book, or removes it when connecting fails.", "quantifier": "every book, every outcome of connecting", "why_tests_cant": "All books and orders of failures.", "anchors": ["nbc/node/basenode.py:BaseNode.add_any_peer", "nbc/node/basenode.py:BaseNode.disconnected"]}
{"id": "C105", "title": "A peer is described by what it said", "statement": "A connection counts as acknowledged exactly if an acknowledgement was received on it, and its version, services, height, user agent, relay flag and reported address are those of the last accepted version message, or unset.", "quantifier": "every history, every connection, bytes in any pieces", "why_tests_cant": "All interleavings of messages on all connections.", "anchors": ["nbc/node/connection.py:Connection.handle_message", "nbc/node/connection.py:Connection.handle_read"]}
{"id": "C106", "title": "Fewer than all pieces say nothing about a split key", "statement": "Whoever has all pieces of split_private_key but one can exclude no other private key, and the missing piece is determined by the key: every key is left possible by exactly one outcome of the random draws.", "quantifier": "every key, number of pieces, missing piece, outcome of the draws, and every other key", "why_tests_cant": "Perfect secrecy is about all keys and all random draws.", "anchors": ["nbc/util/piecewise.py:split_private_key", "nbc/util/ecdsa/util.py:randrange"]}
{"id": "C107", "title": "Pieces of a split key are private keys", "statement": "Every piece split_private_key returns is the WIF of a number in [1, n-1], so it can be loaded as a private key.", "quantifier": "every key, number of pieces, outcome of the draws", "why_tests_cant": "The exception has probability 2^-256 per split.", "anchors": ["nbc/util/piecewise.py:split_private_key", "nbc/util/ecdsa/keys.py:SigningKey.from_string"]}
{"id": "C108", "title": "QR codes hold partial key-sets", "statement": "partial_split_qr_decode(partial_split_qr_encode(keys)) == keys for the set of partial keys of one party, and the text does not depend on the order of the set.", "quantifier": "every required and total number of parties, every set of partial keys", "why_tests_cant": "All group sizes and all keys; the failures depend on the size modulo 5 and on gaps in the indices.", "anchors": ["nbc/util/piecewise.py:partial_split_qr_encode", "nbc/util/piecewise.py:partial_split_qr_decode"]}
{"id": "C109", "title": "Shortened IPv6 addresses mean what RFC 4291 says", "statement": "An address field accepts the shortened form of an IPv6 address with '::' and writes the sixteen bytes it stands for; texts that are no address are refused.", "quantifier": "every list of groups before and behind '::'", "why_tests_cant": "All lengths of the two sides.", "anchors": ["nbc/protocol/format.py:FtIPAddress"]}
{"id": "C110", "title": "Hexadecimal text of hashes", "statement": "hex_to_bin accepts exactly the texts with an even number of hexadecimal digits and gives the bytes in reverse order; bin_to_hex is its inverse.", "quantifier": "every byte string and every text", "why_tests_cant": "All texts, including ill-formed ones.", "anchors": ["nbc/util/__init__.py:hex_to_bin", "nbc/util/__init__.py:bin_to_hex"]}
{"id": "C111", "title": "The attributes of an alert are the fields of its payload", "statement": "The attributes of an alert, read in any order and any number of times, are the fields in its payload; for an ill-formed payload every read raises.", "quantifier": "every payload, every sequence of reads", "why_tests_cant": "All payloads and orders of access; the cache makes the order matter.", "anchors": ["nbc/protocol/messages.py:Alert._parse_and_get"]}
{"id": "C112", "title": "Outpoints are equal if and only if they name the same output", "statement": "OutPoint.__eq__ is True exactly for outpoints with equal hash and index and False otherwise.", "quantifier": "all pairs of outpoints and all other objects", "why_tests_cant": "All pairs.", "anchors": ["nbc/protocol/format.py:OutPoint.__eq__"]}
{"id": "C113", "title": "Caching does not change the hash of an object", "statement": "However often and in whatever order a transaction or header is hashed and serialised, its serialisation stays the same and its hash is the double SHA-256 of it (of the first 80 bytes for a header).", "quantifier": "every object and every sequence of uses", "why_tests_cant": "All sequences of uses of the cache.", "anchors": ["nbc/protocol/format.py:Txn.hash", "nbc/protocol/format.py:BlockHeader.hash"]}
{"id": "C114", "title": "A block and its header have the same hash", "statement": "The header made of a block by BlockHeader.from_block hashes to the double SHA-256 of the first 80 bytes of the message made of the same block by Block.from_block, and counts its transactions.", "quantifier": "every block with fewer than 2^64 transactions", "why_tests_cant": "All field values and numbers of transactions.", "anchors": ["nbc/protocol/format.py:BlockHeader.from_block", "nbc/protocol/messages.py:Block.from_block"]}
{"id": "C115", "title": "Seed addresses are handed out once", "statement": "Whatever the order in which the resolver threads and pop() run, every address found is kept or handed out exactly as often as it was found; pop() after len() > 0 gives an address.", "quantifier": "every list of seeds, every outcome of the lookups, every interleaving", "why_tests_cant": "All interleavings of threads.", "anchors": ["nbc/util/bootstrap.py:DNSSeeder"]}
{"id": "C116", "title": "Guessing the block height ends in time", "statement": "guess_block_height returns within the timeout, earlier only if every source has answered or failed, and returns exactly the values of the sources that are done.", "quantifier": "every set of sources, times of their answers, timeout", "why_tests_cant": "All relative timings of threads.", "anchors": ["nbc/util/__init__.py:guess_block_height"]}
{"id": "C117", "title": "Values are found along a path in JSON data", "statement": "fetch_url_json_path_int gives the integer that the path leads to through objects and lists, and None if there is none.", "quantifier": "all JSON data and all paths", "why_tests_cant": "All shapes of data.", "anchors": ["nbc/util/__init__.py:fetch_url_json_path_int"]}
{"id": "C118", "title": "A node's port mapping lasts as long as the node", "statement": "A listening node maps a free external port to its own port while serve_forever runs and leaves other mappings alone; afterwards the router's table is as before.", "quantifier": "every router table, port, outcome of the router's calls, way the loop ends", "why_tests_cant": "All states of a router.", "anchors": ["nbc/node/__init__.py:add_portmap", "nbc/node/__init__.py:remove_portmap", "nbc/node/basenode.py:BaseNode.serve_forever"]}
{"id": "C119", "title": "The genesis constants of the coin fit together", "statement": "The genesis hash is the double SHA-256 of the header made of the other genesis constants with previous hash zero, and meets the target of the genesis bits.", "quantifier": "the constants of Newbitcoin, with SHA-256 of FIPS 180-4", "why_tests_cant": "No function of the code ever combines these constants, so no call reveals a wrong one.", "anchors": ["nbc/coins/newbitcoin.py:Newbitcoin"]}
{"id": "C120", "title": "Alerts are accepted only from the holder of the alert key", "statement": "Alert.verify with the coin's alert key answers True exactly if the signature meets the ECDSA equation for the double SHA-256 of the payload and the point in the key, and False otherwise.", "quantifier": "every payload, every signature", "why_tests_cant": "All byte strings.", "anchors": ["nbc/protocol/messages.py:Alert.verify", "nbc/coins/newbitcoin.py:Newbitcoin"]}
{"id": "C121", "title": "get_coin gives the coin that was asked for", "statement": "get_coin gives a coin with the name and the symbol asked for, whatever their case, and None if there is none.", "quantifier": "all names and symbols, all lists of coins", "why_tests_cant": "All combinations of arguments.", "anchors": ["nbc/coins/__init__.py:get_coin"]}
{"id": "C122", "title": "Derivation follows BIP 32", "statement": "HDWallet.child(i) is CKDpriv of a private wallet and CKDpub of a public one, with the parent's fingerprint, and raises exactly where BIP 32 has no child; from_master_seed gives BIP 32's master key and refuses a seed that has none.", "quantifier": "all seeds, wallets, indices below 2^32, paths, hash functions", "why_tests_cant": "All keys and indices; the refusals occur with probability 2^-127.", "anchors": ["nbc/wallet/hdwallet.py:HDWallet.child", "nbc/wallet/hdwallet.py:HDWallet.from_master_seed"]}
{"id": "C123", "title": "Messages between two nodes arrive once and in order", "statement": "When the network hands to a connection of one node, in any pieces, a prefix of the bytes that a connection of another node has sent, the first node has handled a prefix of the messages the other queued, each once and in order, and all of them when all bytes have arrived; a message sent by the owner arrives with the values its format gives it.", "quantifier": "every pair of nodes, every pair of histories, every division into pieces", "why_tests_cant": "All interleavings of two event loops and all ways to cut the stream.", "anchors": ["nbc/node/connection.py:Connection.handle_read", "nbc/node/connection.py:Connection.handle_write", "nbc/node/connection.py:Connection.send_message"]}
{"id": "C124", "title": "Two nodes complete the handshake", "statement": "Two nodes of the same coin that are connected to each other have both acknowledged the other's version message, and each knows the other's protocol version, user agent, height and services and the ip under which it is seen, whenever all that they sent each other has arrived.", "quantifier": "every pair of nodes with settings they can present, every pair of fair histories", "why_tests_cant": "All interleavings of two event loops, with any other peers and heartbeats.", "anchors": ["nbc/node/connection.py:Connection.handle_message", "nbc/node/basenode.py:BaseNode.command_version", "nbc/node/connection.py:Connection.send_message"]}
{"id": "C125", "title": "Pieces of different keys are not combined", "statement": "partial_combine_private_keys raises ValueError when two of the partial keys disagree in the required count or the checksum; with ignore_errors those that disagree with the first have no influence; a key it returns is the sum of the shares of one complete key-set and has the checksum the pieces carry.", "quantifier": "every list of partial keys, every order of the dictionary", "why_tests_cant": "All mixtures of pieces of any number of keys.", "anchors": ["nbc/util/piecewise.py:partial_combine_private_keys"]}
{"id": "C126", "title": "A wallet file is loaded as what it says it is", "statement": "loadFrom returns a wallet of the kind the file names, loaded from its data with the given passphrase; a file of an unknown type is refused with RuntimeError.", "quantifier": "every file content, passphrase and JSON reader", "why_tests_cant": "All file contents.", "anchors": ["nbc/wallet/__init__.py:loadFrom"]}
{"id": "C127", "title": "Signatures are strictly encoded", "statement": "Every signature ecc.sign returns, followed by a hash type, passes the strict DER test of BIP 66, which Bitcoin nodes apply.", "quantifier": "every message, key, random draw and hash type", "why_tests_cant": "Lengths and signs of the two numbers vary with the signature; short numbers occur with small probability.", "anchors": ["nbc/util/ecc.py:sign", "nbc/util/ecdsa/util.py:sigencode_der", "nbc/util/ecdsa/der.py:encode_integer"]}
{"id": "C128", "title": "Nobody but the signer can change the text of a signature", "statement": "If ecc.verify accepts a signature of a message under a key, it accepts no other text computed from it without the key.", "quantifier": "every message, key and signature", "why_tests_cant": "All byte strings.", "anchors": ["nbc/util/ecc.py:verify", "nbc/util/ecc.py:sigdecode_der", "nbc/util/ecdsa/util.py:sigdecode_der"]}
{"id": "C129", "title": "The hash of a received transaction or header is that of its bytes", "statement": "The hash property of a Txn or BlockHeader that was read from the network is the double SHA-256 of the bytes it was read from (of their first 80 for a header), however it is used in between.", "quantifier": "every text that is read, every sequence of uses", "why_tests_cant": "All serialised transactions; the deviations need particular sizes.", "anchors": ["nbc/protocol/format.py:Txn", "nbc/protocol/format.py:BlockHeader", "nbc/protocol/format.py:FtVarInteger"]}
{"id": "C130", "title": "Exactly the texts of transactions, blocks and headers are read", "statement": "Message.parse accepts a correctly framed tx, block or headers payload exactly if it begins with a text of that kind, and gives the values this text stands for; every block in Bitcoin's encoding is one.", "quantifier": "every payload, every magic", "why_tests_cant": "All byte strings, in particular all truncations and all nested counts.", "anchors": ["nbc/protocol/messages.py:Message.parse", "nbc/protocol/format.py:CompoundType.parse", "nbc/protocol/format.py:FtVarInteger", "nbc/protocol/format.py:parse_var_set"]}
{"id": "C131", "title": "Logging does not change what a node does", "statement": "Whatever the log level, a node treats every message it receives and every message it is asked to send as it does when nothing is logged.", "quantifier": "every log level, message, node state and Python version", "why_tests_cant": "The texts are made by code of their own for each type of message; whether it raises depends on the message, the level and the Python version.", "anchors": ["nbc/node/connection.py:Connection.handle_message", "nbc/node/connection.py:Connection.send_message", "nbc/protocol/messages.py:_debug", "nbc/protocol/messages.py:Alert.__str__", "nbc/protocol/format.py:CompoundType.__str__", "nbc/protocol/format.py:FtArray.str"]}
{"id": "C132", "title": "Every point of a library curve belongs to exactly one private key", "statement": "Each curve of the library has exactly as many points, the one at infinity included, as its order says; every other point is the generator times exactly one number between 1 and the order less one, so a public key that is accepted has exactly one private key.", "quantifier": "every curve of the library and every pair of numbers or byte string", "why_tests_cant": "The curves have up to 2^521 points; neither counting them nor finding a logarithm can be done by running anything.", "anchors": ["nbc/util/ecdsa/ecdsa.py:point_is_valid", "nbc/util/ecdsa/keys.py:VerifyingKey.from_string", "nbc/util/ecdsa/curves.py:curves"]}
{"id": "C133", "title": "Seeds cut down to scalars are scalars", "statement": "randrange_from_seed__truncate_bytes and randrange_from_seed__truncate_bits give each seed a number between 1 and the order less one: one plus the number made of as many of the leading bits of the SHA-256 of the seed as the order has room for.", "quantifier": "every seed, order and Python version", "why_tests_cant": "All seeds and orders; the mask is wrong only for some sizes of order.", "anchors": ["nbc/util/ecdsa/util.py:randrange_from_seed__truncate_bytes", "nbc/util/ecdsa/util.py:randrange_from_seed__truncate_bits", "nbc/util/ecdsa/util.py:lsb_of_ones"]}
{"id": "C134", "title": "Too few partial key-sets say nothing about the key", "statement": "Whoever sees fewer groups of partial keys than required cannot exclude any other key: with other random draws its split gives the same groups.", "quantifier": "every key, other key, required and total count, choice of groups and draws", "why_tests_cant": "A statement about all keys and all draws that fit what was seen.", "anchors": ["nbc/util/piecewise.py:partial_split_private_key", "nbc/util/piecewise.py:split_private_key"]}
{"id": "C135", "title": "A peer cannot touch other peers' connections", "statement": "Whatever a peer sends and however its socket behaves, the queues, buffers, counters, scores and descriptions of the other connections, the settings and the listener stay as they are. Over any history a connection becomes what it would be if its peer were the only one, apart from answers to getaddr and from whom a heartbeat asks for addresses.", "quantifier": "every node state, connection, event and history", "why_tests_cant": "All interleavings of what any number of peers do.", "anchors": ["nbc/node/connection.py:Connection.handle_read", "nbc/node/connection.py:Connection.handle_message", "nbc/node/connection.py:Connection.send_message", "nbc/node/basenode.py:BaseNode.punish_peer", "nbc/node/basenode.py:BaseNode.heartbeat"]}
{"id": "C136", "title": "A signature belongs to one digest and one key", "statement": "A pair r, s that verifies for a digest under a key verifies for no other digest (modulo the order) under that key, and for that digest under no other key.", "quantifier": "every curve of the library, key, digest and pair", "why_tests_cant": "All digests, keys and pairs; finding a second one by running anything is infeasible unless the private key is known.", "anchors": ["nbc/util/ecdsa/ecdsa.py:Public_key.verifies", "nbc/util/ecc.py:verify"]}
{"id": "C137", "title": "Signatures do not give the private key away", "statement": "The signatures a key has made, and the messages, do not let anybody compute the private key, also when the random source repeats itself.", "quantifier": "every key, two messages, random draws", "why_tests_cant": "A computation must be found that works for every key.", "anchors": ["nbc/util/ecc.py:sign", "nbc/util/ecdsa/keys.py:SigningKey.sign_number", "nbc/util/ecdsa/ecdsa.py:Private_key.sign"]}
{"id": "C138", "title": "The private key of a child does not give the parent away", "statement": "Whoever holds the public part of an HD wallet and the private key of one of its descendants cannot compute the private key of the wallet.", "quantifier": "every wallet, every path of derivations", "why_tests_cant": "A computation must be found that works for every wallet and path.", "anchors": ["nbc/wallet/hdwallet.py:HDWallet.child"]}
{"id": "C139", "title": "Exactly which payloads of every message type are accepted", "statement": "For each of the 21 message types there is an explicit language of payloads, written independently of the parser: every field has its complete texts (fixed-width numbers, size texts of 1, 3 or 5 bytes, 16-byte addresses, byte strings, arrays, objects) and, for some fields, texts that are cut off at the end of the payload (a byte string or hash shorter than announced, a missing relay flag, and after a cut only fields and items that can be made from nothing). A frame with correct magic, length and checksum is accepted exactly when its payload begins with a complete text of all fields or is such a cut text; the message then has exactly the fields that this text stands for, and no payload stands for two messages. In particular every payload in Bitcoin's own encoding (shortest sizes, below 2^32) is read as what it means, whatever bytes follow.", "quantifier": "for all message types, payloads below 2^32 bytes, magic values, trailing data and hash functions", "why_tests_cant": "The set of acceptable payloads is infinite, and the property is an equivalence: tests can only sample texts that should be accepted and a few that should not.", "anchors": ["nbc/protocol/messages.py:Message.parse", "nbc/protocol/format.py:CompoundType.parse", "nbc/protocol/format.py:parse_var_set", "nbc/protocol/format.py:FtVarString.parse", "nbc/protocol/format.py:FtOptional.parse"]}
{"id": "C140", "title": "Whatever is made and written is well formed and read back", "statement": "Every message object that a program can make with the constructors (from numbers, strings, tuples and objects that were themselves made with constructors) is written, if writing succeeds at all, as a frame whose payload is a text of its message type: the fields in their order, every value within the bounds of its field, every length that of what follows. Such a frame is read back as the values that the text stands for, and a payload below 65535 bytes is in Bitcoin's own encoding. In every execution of a node, all that it sends is a sequence of such frames.", "quantifier": "for all message types, all values of all fields at every depth, all executions of a node", "why_tests_cant": "Values are nested without bound, and executions are infinite in number; tests write single chosen messages.", "anchors": ["nbc/protocol/format.py:CompoundType.__init__", "nbc/protocol/format.py:CompoundType.binary", "nbc/protocol/messages.py:Message.binary", "nbc/node/connection.py:Connection.send_message", "nbc/node/basenode.py:BaseNode.command_get_address"]}
{"id": "C141", "title": "Difficulty of a block", "statement": "get_difficulty(bits) is the double nearest to the target of difficulty one divided by the target of the bits, raises exactly for a target of zero or beyond the floats, and comparing difficulties is comparing targets the other way round in spite of the rounding.", "quantifier": "every natural number of compact bits, every pair of them", "why_tests_cant": "Rounding of 2^32 quotients: a test cannot show that no other double is nearer, nor that rounding never merges or swaps two targets.", "anchors": ["nbc/util/__init__.py:get_difficulty", "nbc/util/__init__.py:get_target"]}
{"id": "C142", "title": "What the owner signs, the watching wallet accepts", "statement": "Along any path of non-hardened indices, a web server holding the public wallet reaches the public counterpart of the wallet the owner reaches from the private one: same public key, same address, it accepts exactly the owner's signatures and cannot sign itself; the demonstration in hdwallet.main shows this.", "quantifier": "every private wallet, every path below 2^31, every random chain number drawn by either side, every signed text and nonce", "why_tests_cant": "Follows from algebra on the curve for all keys and all paths; a test runs one path with one key, and a difference that depends on random draws may not show.", "anchors": ["nbc/wallet/hdwallet.py:HDWallet.child", "nbc/wallet/hdwallet.py:HDWallet.sign", "nbc/wallet/hdwallet.py:HDWallet.verify", "nbc/wallet/hdwallet.py:HDWallet.pubkey", "nbc/wallet/hdwallet.py:main"]}
{"id": "C143", "title": "Addresses spread with the time they were last seen", "statement": "An addr message enters every address it lists into the book with the time and services it gives, and changes nothing else; so a node that asks another for addresses learns all addresses of the answer. The time stored for a peer of the node itself is the time it was last heard, so that peers that are alive are handed on first.", "quantifier": "every list of up to 1000 entries, every address book with room, every pair of nodes of a coin", "why_tests_cant": "Concerns the book after messages of any content from any state; the mistake in the time stamp of own peers only shows once the book has a thousand other entries.", "anchors": ["nbc/node/basenode.py:BaseNode.command_address", "nbc/node/basenode.py:BaseNode.command_version_ack", "nbc/node/basenode.py:BaseNode.command_get_address", "nbc/node/connection.py:Connection.timestamp"]}
{"id": "C144", "title": "Numbers taken for primes are primes", "statement": "Above 1229, is_prime accepts exactly the numbers without prime factor up to 11 that are strong probable primes to the first t primes, t being the entry of Menezes' Table 4.4 for the number of bits (40 below 100 bits). No composite number is accepted, so next_prime returns primes and factorization prime factors.", "quantifier": "every integer of any size", "why_tests_cant": "The first half is a claim about all integers; composites passing the test are too rare to be met by trying numbers, and one for the two bases used above 1299 bits has to be constructed.", "anchors": ["nbc/util/ecdsa/numbertheory.py:is_prime", "nbc/util/ecdsa/numbertheory.py:next_prime", "nbc/util/ecdsa/numbertheory.py:factorization"]}
{"id": "C145", "title": "Random scalars are uniform", "statement": "With an entropy source whose answers are equally likely, randrange(order) returns every scalar of [1, order-1] with the same probability, so every private key of a new wallet is equally likely. It gives up with probability at most about 2^-60, and all curves of the library behave well, that is a request rarely has to be repeated.", "quantifier": "every order, every pair of scalars; counted over all sequences of answers of the entropy source", "why_tests_cant": "A statement on distributions over more than 256^320000 sequences of answers; statistical tests see no bias below their resolution and never see the cut-off.", "anchors": ["nbc/util/ecdsa/util.py:randrange", "nbc/wallet/address.py:Address.generate"]}
{"id": "C146", "title": "A wallet file cut short is never opened as a wallet", "statement": "The text saveTo writes is read back by loadFrom to exactly the dictionary that was dumped, in whatever order the Python version writes the dictionary's entries. Every proper beginning of that text raises ValueError. So at every moment of a save, whatever part of the text has reached the disk, the file holds the old content, or the complete new wallet, or something loadFrom refuses: a crash can lose a wallet but never turns the file into a different wallet (shorter key, smaller number, dropped entry).", "quantifier": "every wallet of both classes, passphrase, order of entries, Python version, old content and sequence of partial writes", "why_tests_cant": "The property ranges over all wallets, all orders of the entries and every place where the text may be cut, including inside a number, where the shorter text is a valid number again.", "anchors": ["nbc/wallet/__init__.py:8-22", "nbc/wallet/address.py:172-210", "nbc/wallet/hdwallet.py:239-286"]}
{"id": "C147", "title": "The programs of the README run", "statement": "The programs the README shows for wallets do what it says: creating a wallet, printing it, saving and loading it with and without a password (given or typed at the prompt) prints the same text every time; the text names the address and never the private key; the extended-key example gives a child wallet; the signature example verifies its signatures. (The extended-key example always raises TypeError in from_extended_key, and the signature example always stops with AttributeError, because publicKey() returns a byte string that has no verify.)", "quantifier": "every random draw, hash functions, Python version and order of entries in the saved file", "why_tests_cant": "A run shows one random wallet and one order of entries; that the printed text is the same for every wallet and carries nothing of the private key is a statement about all wallets.", "anchors": ["README.md:28-102", "nbc/wallet/address.py:167-170", "nbc/wallet/hdwallet.py:288-291", "nbc/wallet/__init__.py:8-22"]}
{"id": "C148", "title": "Scalars derived from a seed are adequately, but not perfectly, uniform", "statement": "randrange_from_seed__overshoot_modulo reduces a string of 2*orderlen(order) generator bytes modulo order-1 and adds one. Counted over all strings of that length (each of which is what the generator gives for some hash function), every scalar of [1, order-1] comes from q or q+1 of them, with q = 256^(2l) / (order-1), and the scalars with q+1 are exactly those up to the remainder; there is no other outcome. The probability of any set of scalars differs from the uniform one by at most 256^-l, l the length of the order in bytes. The distribution is exactly uniform if and only if order-1 divides 256^(2l); this holds for none of the library's six curves.", "quantifier": "all orders above one, all scalars, all sets of scalars, all generator outputs", "why_tests_cant": "a distribution over 2^512 strings cannot be sampled densely enough to tell q from q+1, and the bound is over all sets of scalars", "anchors": ["nbc/util/ecdsa/util.py:59-94"]}
{"id": "C149", "title": "The node serves until it is stopped", "statement": "serve_forever goes on until StopNode is raised: in every turn of the event loop the sockets that asyncore hands to select, collected from readable and writable of the connections in the map, are open ones, so that select does not fail and asyncore.loop neither raises nor returns, whatever peers do and however long they are silent.", "quantifier": "every node, every history of turns of the loop (heartbeats, polls, calls for ready sockets), every clock", "why_tests_cant": "the failure needs three hours of silence coinciding with pending output, and the error comes from the system call of a library; a unit test of readable() alone sees nothing wrong", "anchors": ["nbc/node/basenode.py:127-141", "nbc/node/basenode.py:268-311", "nbc/node/connection.py:105-120", "nbc/node/connection.py:156-157"]}
{"id": "C150", "title": "StopNode stops a node", "statement": "A program that derives its own class from BaseNode stops the node by raising StopNode in one of its methods: serve_forever returns normally, with the listener and the connections closed. In fact the loop ends with StopNode exactly if begin_loop raises it; raised in a handler of messages (command_*, connected) it does what a return would do, raised in invalid_command it closes that connection, and in both cases the node goes on. When the node stops, the listener is closed but every connection stays open.", "quantifier": "for every subclass (arbitrary begin_loop, message handlers and invalid_command, raising anything), every node, every sequence of turns of the event loop", "why_tests_cant": "which method of a subclass raises, in which of asyncore's and the connection's exception handlers, after which history, cannot be enumerated by tests", "anchors": ["nbc/node/__init__.py:13", "nbc/node/basenode.py:127-148", "nbc/node/basenode.py:246-247", "nbc/node/basenode.py:273-281", "nbc/node/connection.py:122-154", "nbc/node/connection.py:170-177"]}
{"id": "C151", "title": "node.close() stops a node that runs in a thread", "statement": "The program at the foot of basenode.py starts a node with startServer and ends it with node.close(): from then on the node takes no connections and its loop ends. In fact it takes no connections; but under Python 2 the loop never returns; under Python 3 it returns when a turn finds no connection open and goes on for any number of turns while one is, even one that takes and says nothing; and a close that comes between the listing of the sockets and select ends the loop with an exception.", "quantifier": "for every node, every moment of the call in a turn, every sequence of turns after it, both versions of Python", "why_tests_cant": "the moment of the call relative to the other thread, and unboundedly many turns after it, cannot be covered by tests", "anchors": ["nbc/node/basenode.py:127-142", "nbc/node/basenode.py:268-296", "nbc/node/basenode.py:348-359"]}
{"id": "C152", "title": "Connections can be compared and looked up", "statement": "A program can compare two connections and look one up in a list, a set or a dictionary. In fact == never answers (it calls itself until the interpreter's limit), a lookup in a list answers only if the connection is its first element or the list is empty, and a lookup in a set or dictionary answers unless another entry with the hash of the same address is met first.", "quantifier": "for every recursion limit, every list of connections, every hash function of addresses, every node", "why_tests_cant": "the answer depends on the order of the entries and on which addresses coincide, and the failure of == must be shown for every limit", "anchors": ["nbc/node/connection.py:222-226"]}
{"id": "C153", "title": "How much a peer can make a node send", "statement": "Whatever the peers send, in whatever pieces, and however the sockets behave, the bytes sent to and queued for a peer grow by at most as many as the peer sends in Python 3, and by at most 1252 times as many in Python 2, where getaddr is answered; a single message has at most as many bytes queued as it has itself, or 30027 for getaddr, and only for the peer it came from. Not so: that what is queued for a peer that does not read is bounded, or that a peer gets no more than it sends: in Python 2, a peer of a node that knows 1000 addresses gets 30027 bytes for every 24, again and again.", "quantifier": "for all nodes, histories of what arrives, is written and is closed, chunkings, peers", "why_tests_cant": "A test sends some messages; the bound is about all byte streams, split anywhere, and all states of the address book.", "anchors": ["nbc/node/connection.py:122-154", "nbc/node/connection.py:186-220", "nbc/node/basenode.py:328-341"]}
{"id": "C154", "title": "A wrong passphrase is noticed", "statement": "Opening an encrypted wallet file with a passphrase other than the one it was saved with raises an error; it never gives a wallet with another private key.", "quantifier": "every encrypted wallet file, every passphrase", "why_tests_cant": "It is a claim about every pair of passphrase and file. A test tries a wrong passphrase or two, and sees them refused: a wrong one that opens an HD wallet is met once in about 65536 tries.", "anchors": ["nbc/wallet/address.py:_aesDecrypt", "nbc/wallet/address.py:Address.load_from_cfg", "nbc/wallet/hdwallet.py:HDWallet.load_from_cfg"]}
{"id": "C155", "title": "Damage to a wallet file is noticed", "statement": "A wallet file of which some of the stored digits were changed or lost is refused, or opens as the wallet that was saved; it does not open as another wallet.", "quantifier": "every wallet, passphrase and Python version, and every change of the digits", "why_tests_cant": "The changes that go unnoticed are a set of 256^32 texts around each file; a test would have to hit the block structure of the cipher by chance.", "anchors": ["nbc/wallet/address.py:_aesEncrypt", "nbc/wallet/address.py:_aesDecrypt", "nbc/wallet/address.py:Address.load_from_cfg", "nbc/wallet/hdwallet.py:HDWallet.dump_to_cfg", "nbc/wallet/hdwallet.py:HDWallet.load_from_cfg"]}
{"id": "C156", "title": "Encrypted wallet files do not show which keys are alike", "statement": "From two files saved with a passphrase nobody without the passphrase can tell whether the private keys in them are the same or begin alike.", "quantifier": "every two HD wallets and every passphrase", "why_tests_cant": "It is about all pairs of keys, and equality of a part of two files says something about the keys only if it holds exactly when parts of the keys are equal.", "anchors": ["nbc/wallet/address.py:_aesEncrypt", "nbc/wallet/hdwallet.py:HDWallet.dump_to_cfg"]}
{"id": "C157", "title": "What a peer sends cannot forge lines in the log", "statement": "Whatever bytes a peer sends, each entry the node writes to its log about them is one line of printable characters that begins with the address of that peer or with (node); and a frame that is refused is shown whole, so that no two leave the same entry.", "quantifier": "for all byte strings received as one frame, both versions of Python, all log levels, all addresses of peers", "why_tests_cant": "The strings of a message come from the peer and may hold any bytes; a test tries a few.", "anchors": ["nbc/protocol/messages.py:16-41", "nbc/protocol/messages.py:410-414", "nbc/protocol/format.py:108-112", "nbc/protocol/format.py:344-374", "nbc/node/basenode.py:118-125", "nbc/node/basenode.py:144-145", "nbc/node/connection.py:186-211"]}
{"id": "C158", "title": "The passphrase a wallet was saved with opens it when it is typed", "statement": "Whoever types at the prompt the passphrase a wallet was saved with gets the wallet back; empty lines are asked again. A passphrase given as text instead of bytes stands for the bytes of its characters or is refused, and no wallet is saved under a text.", "quantifier": "every wallet with a private key, passphrase of bytes, sequence of typed lines, text, Python version", "why_tests_cant": "All passphrases and all lines a user may type.", "anchors": ["nbc/wallet/address.py:_aesEncrypt", "nbc/wallet/address.py:_aesDecrypt", "nbc/wallet/__init__.py:saveTo", "nbc/wallet/__init__.py:loadFrom"]}
{"id": "C159", "title": "The node keeps working when the clock is set", "statement": "As long as all readings of the clock lie within three hours of one another, no poll closes a connection, and a reading more than ten seconds after the last heartbeat starts the next one. When the clock is set back by some amount the heartbeat stops for that amount and ten seconds (no new peers are dialled, no ban scores go down), whatever happens meanwhile. When the clock is set forward by more than three hours, or the computer slept for as long, the next round of polls closes every connection that ever received anything, though the peers are still there.", "quantifier": "All nodes, all connections, all sequences of events (reads, writes, polls, accepts, heartbeats, commands), all clock readings.", "why_tests_cant": "The clock is real time of day: a test runs within seconds with a clock that only goes forward; the claim is about every sequence of events under every way the clock may be moved.", "anchors": ["nbc/node/connection.py:105-120", "nbc/node/connection.py:122-135", "nbc/node/basenode.py:227-242", "nbc/node/basenode.py:273-281"]}
{"id": "C160", "title": "A private key given as text is read as the same key given as bytes", "statement": "In Python 3 b58decode, privkey_from_wif, shared_secret and combine_private_keys read a key that is text exactly as the byte string of its characters, for every text; a key that is accepted, text or bytes, has letters of base58 only, and any other character (a blank, a newline, a look-alike letter outside ASCII) is a ValueError; encode_check raises on every text. False beyond that: in Python 2 every key that is unicode is refused with a TypeError, and in both versions Address refuses every key that is text, private or public, with an AssertionError, though it takes the same key as bytes.", "quantifier": "All texts and byte strings, both Python versions, all prefixes, all hash functions of the right output lengths.", "why_tests_cant": "Tests try a few keys of the type the author had in mind; the claim is about every text, including characters outside ASCII and outside the alphabet, in both versions.", "anchors": ["nbc/util/base58.py:20-25", "nbc/util/base58.py:63-95", "nbc/util/key.py:84-100", "nbc/util/ecc.py:94-107", "nbc/util/piecewise.py:90-104", "nbc/wallet/address.py:65-84"]}
{"id": "C161", "title": "A node does not talk to itself, and listens only after the handshake", "statement": "A node never dials the address it is bound to while it listens there, whatever happens and whoever names that address. Beyond that the claim is false: the nonce of a version message is never looked at (greetings that differ only in it do the same), so a node that reaches itself under another address completes the handshake with itself at both ends; and a peer that has not said a word of the handshake is heard, fills the address book and has its pings answered.", "quantifier": "All nodes, all histories of events, all nonces, all connections, all messages of the kinds named.", "why_tests_cant": "A test would have to meet itself through a router, or send messages in an order no client uses; the claim is about every history.", "anchors": ["nbc/node/connection.py:60-71", "nbc/node/connection.py:186-211", "nbc/node/basenode.py:154-165", "nbc/node/basenode.py:321-346"]}
{"id": "C162", "title": "A wallet is recovered from its seed and path", "statement": "The master seed of an HD wallet, given as bytes or as text, and the path of child numbers give the same wallet whenever they are used: the same keys and the same addresses.", "quantifier": "for all hash functions, seeds, paths of any length, virtual chain numbers asked for and random numbers drawn", "why_tests_cant": "The tests derive each wallet once, in one process, and the virtual chain number is drawn at random in every constructor; a statement about two derivations along paths of every length needs an induction.", "anchors": ["nbc/wallet/hdwallet.py:228-237", "nbc/wallet/hdwallet.py:79-121"]}
{"id": "C163", "title": "Two's complement", "statement": "twos_comp(val, bits) is the signed number whose two's complement of that many bits is val: it lies between -2^(bits-1) and 2^(bits-1) and differs from val by a multiple of 2^bits.", "quantifier": "for all numbers and widths", "why_tests_cant": "Nothing in the repository calls it with a value beyond its width, and the widths and values are unbounded.", "anchors": ["nbc/util/ecc.py:38-43"]}
{"id": "C164", "title": "A node can be used by the program while a thread serves it", "statement": "While the thread of startServer serves the node, the program's own thread may list the peers, add and remove peers and close the node: node.peers gives the connections that are open, and the loop of the node goes on (or ends in order).", "quantifier": "for every table of connections, every interleaving of the two threads at the steps of the iteration, both versions of Python", "why_tests_cant": "The moment at which the threads are switched decides; a test sees one interleaving, and nearly always the harmless one.", "anchors": ["nbc/node/basenode.py:174-176", "nbc/node/basenode.py:227-228", "nbc/node/basenode.py:273-311", "nbc/node/basenode.py:348-359"]}
{"id": "C165", "title": "The node of raw_.py takes connections", "statement": "A RawNode of raw_.py with an address accepts connections while serve_forever runs, and goes on until StopNode is raised.", "quantifier": "for both versions of Python, every number of turns of the loop, every sequence of connections", "why_tests_cant": "No test starts this node; that its loop never ends, or takes nobody however long it runs, is about every number of turns.", "anchors": ["nbc/node/raw_.py:11-55", "nbc/node/raw_.py:63-83", "nbc/node/raw_.py:88-129"]}
{"id": "C166", "title": "A program's own message classes are registered as documented", "statement": "Message subclasses will automatically be registered, unless they set not_regist = True (documentation of Message): a class that a program declares is the one its command names from then on, messages of it are sent and received as such, and the commands of other classes keep their meaning.", "quantifier": "for every sequence of declarations, every base, command and list of properties, every frame received", "why_tests_cant": "Which classes a program declares, in which order and with which bases, is open; the tests only know the classes of the package.", "anchors": ["nbc/protocol/format.py:38-55", "nbc/protocol/messages.py:46-77", "nbc/protocol/messages.py:85-108", "nbc/protocol/messages.py:270-303"]}
{"id": "C167", "title": "Making a node", "statement": "BaseNode and RawNode give a node that listens on the address given (without one: on a free port of 127.0.0.1, and takes no incoming connections), tells that address, has no peers, has the coin's seeds if asked for, and can take part in the protocol; when the address is in use AddrInUseError is raised; a failure leaves no socket open.", "quantifier": "for all coins, addresses, limits, answers of the operating system and versions of Python", "why_tests_cant": "tests make a node at one address with one Python on one system; the number of the error and the attributes of asyncore differ elsewhere", "anchors": ["nbc/node/basenode.py:33-86", "nbc/node/raw.py:7-8", "nbc/coins/newbitcoin.py:12-43", "nbc/coins/coin.py:8-14"]}
{"id": "C168", "title": "A node is not stopped by the number of its connections", "statement": "However many connections peers open to a node, it goes on listening and serving: connections beyond what max_peers, the operating system or select allow are refused or wait, and when others have gone new ones are taken.", "quantifier": "for all nodes, limits, peers and histories", "why_tests_cant": "tests open a few connections; the failure needs as many as the process may have files, and the answer of the system at that point", "anchors": ["nbc/node/basenode.py:249-266", "nbc/node/basenode.py:154-165", "nbc/node/basenode.py:127-141", "nbc/node/connection.py:46-58"]}
{"id": "C169", "title": "Leaving out the check of a public key's point", "statement": "VerifyingKey.from_string(s, curve, validate_point=False) spares the check of the point. On each of the six curves of the table this changes nothing in what is accepted: the same strings are keys, and the same keys, with and without it. On any curve at all, what is refused without it is exactly a wrong length, coordinates off the curve (AssertionError) and coordinates not below the order (RuntimeError). On a curve whose group is larger than the one of its generator it lets in points that are no public keys, although the constructors of Point and Public_key both seem to test the order.", "quantifier": "every curve, every byte string", "why_tests_cant": "The accepted strings of a 256-bit curve cannot be enumerated, and that no further point exists is a statement about the size of the group.", "anchors": ["nbc/util/ecdsa/keys.py:32-48", "nbc/util/ecdsa/ellipticcurve.py:66-74", "nbc/util/ecdsa/ecdsa.py:76-90"]}
{"id": "C170", "title": "Bans are forgotten when they are over", "statement": "A ban lasts one hour (handle_accept deletes an older entry), so what a node remembers of banned peers does not grow for ever. In fact every entry of the table is the ip of a connection that the program punished, with the time of a punishment, at most one for an ip; but no entry is ever deleted, whatever happens and however much later: the table grows by one for each ip, up to all that there are.", "quantifier": "every history of a node, every list of ips", "why_tests_cant": "It is a statement about all later histories, over any time.", "anchors": ["nbc/node/basenode.py:180-184", "nbc/node/basenode.py:249-266"]}
{"id": "C171", "title": "Numbers with separators read back", "statement": "commify shows an integer as a sign if it is negative, a group of one to three digits and groups of three digits with a comma before each, without a leading zero, meaning that number: the text is the only one of this form, and two numbers shown alike are equal.", "quantifier": "every integer, every text", "why_tests_cant": "The integers are unbounded; an off-by-one in the groups shows only at certain lengths.", "anchors": ["nbc/util/__init__.py:60-61"]}
{"id": "C172", "title": "Wallet files move between Python 2 and Python 3", "statement": "What is written for a wallet with a passphrase does not depend on the Python that runs. Every dictionary, also a damaged one, with any passphrase, is loaded as the same wallet by both Pythons or refused by both; the exception is the same, but for an HD wallet whose entries give no key (no text at all, or the secret 0): TypeError in Python 2, NameError in Python 3. So a private wallet that is saved with one Python is opened complete with the other, in whatever order each writes the entries of a dictionary.", "quantifier": "all wallets, dictionaries, passphrases, and both Pythons", "why_tests_cant": "A test runs under one Python. The cipher under the wallet file does depend on the Python (with keys of 32 bytes it fails in Python 3), so that the files do not must be shown of every wallet and every passphrase.", "anchors": ["nbc/wallet/__init__.py:8-22", "nbc/wallet/address.py:15-48", "nbc/wallet/address.py:172-210", "nbc/wallet/hdwallet.py:239-286", "nbc/util/pyaes/aes.py:145-179"]}
{"id": "C173", "title": "Coins compared, ordered and used as keys", "statement": "Two coin objects are equal exactly if they have the same name; < is the alphabetical order of the names, a strict order that is total on different names; a dictionary whose keys are coins gives, for any coin object, what was stored last under a coin of that name; comparing a coin with something else says that they differ; two coins are shown alike exactly if their names differ at most in the case of letters.", "quantifier": "all coin objects, all hash functions of Python, all histories of a dictionary, both Pythons", "why_tests_cant": "Equality and hash are two methods that look at different attributes; whether a dictionary works depends on all pairs of keys it may ever hold, and on the Python.", "anchors": ["nbc/coins/coin.py:39-46"]}
{"id": "C174", "title": "From a new address to a signature that others check", "statement": "A new address is saved with a passphrase under one Python and opened with that passphrase under either Python: it is the very same address, whatever file was there before and however the writing was split. From its public key anyone makes a watching wallet without a private key that shows the same address and the same public key, and accepts every signature the opened wallet makes.", "quantifier": "all entropy, virtual chain numbers, networks, compressed or not, passphrases, data, both Pythons for saving and for opening", "why_tests_cant": "Every step has its own tests at best; that the steps fit together for every key is a statement about all keys, and it is false for some that nobody meets by chance.", "anchors": ["nbc/wallet/address.py:52-210", "nbc/wallet/__init__.py:8-22", "nbc/util/ecc.py:46-107", "nbc/util/key.py:42-112"]}
{"id": "C175", "title": "The version the ECDSA library reports", "statement": "If git filled in the names of the commit, the version reported is what follows the prefix in the alphabetically first tag that begins with it (tags are the names marked as tags, or if there are none, the names with a digit), so that a release is preferred to its candidates, and in whatever order git lists the names; without such a tag it is the id of the commit. So the library as shipped reports the id of its commit, wherever it lies. If git did not fill them in, a working copy reports what git describe says, with an id that tells whether it was changed; otherwise the name of the directory is asked, and at last the default.", "quantifier": "all lists of names, prefixes, ids, and all answers of git and of the file system", "why_tests_cant": "The names are those of some other repository at some other time, and what git answers depends on the machine; the suite runs in one place.", "anchors": ["nbc/util/ecdsa/_version.py:12-50", "nbc/util/ecdsa/_version.py:79-187", "nbc/util/ecdsa/__init__.py:12-13"]}
{"id": "C176", "title": "Signing keys derived from a secret", "statement": "randrange_from_seed__overshoot_modulo and randrange_from_seed__trytryagain derive consistent signing keys from a secret: the same seed has the same key wherever it is used, different seeds have keys that have nothing to do with each other, and every seed os.urandom gives can be used.", "quantifier": "all seeds (bytes or text), orders, hash functions and both Python versions", "why_tests_cant": "A statement about all pairs of seeds and about all hash functions at once; a test with an ASCII seed on one Python sees none of the differences.", "anchors": ["nbc/util/ecdsa/util.py:PRNG", "nbc/util/ecdsa/util.py:randrange_from_seed__overshoot_modulo", "nbc/util/ecdsa/util.py:randrange_from_seed__trytryagain"]}
{"id": "C177", "title": "Scalars found by trying again are uniform, and soon found", "statement": "randrange_from_seed__trytryagain gives every scalar of [1, order-1] with exactly the same probability, the chance that a try has to be repeated is less than one half, and the average number of tries is between 1 and 2.", "quantifier": "all orders above one, all scalars, any number of tries, all generator outputs", "why_tests_cant": "A distribution over 256^33 strings for each try, and over any number of tries.", "anchors": ["nbc/util/ecdsa/util.py:randrange_from_seed__trytryagain", "nbc/util/ecdsa/util.py:bits_and_bytes"]}
{"id": "C178", "title": "The point at infinity never passes for a public key", "statement": "A public key is a point with two coordinates below the order of the generator, never the point at infinity: no key object is made of it, no text, DER, PEM or address is made of it, no child of a watching wallet is at it, and a secret that is zero modulo the order gives no shared secret. A text that is made of a key determines its point.", "quantifier": "for all curves, generators, points, keys, wallets, child modifiers and secrets", "why_tests_cant": "Tests use a few keys; the point at infinity is met only for scalars that are multiples of a 256-bit order or for sums that cancel, which no sample hits.", "anchors": ["nbc/util/ecdsa/ecdsa.py:76-90", "nbc/util/ecdsa/keys.py:24-31", "nbc/util/ecdsa/keys.py:77-96", "nbc/wallet/address.py:50-57", "nbc/wallet/hdwallet.py:79-121", "nbc/util/ecc.py:94-107"]}
{"id": "C179", "title": "Keys read from the files of others are valid, and each key has one text", "statement": "Whatever DER text is accepted as a public or private key gives a key of one of the six curves whose point is on its curve (for a private key: whose scalar is in range and whose public key belongs to it, whatever public key the text has), and the key is written to a text that is read as the same key. No two texts are read as one key.", "quantifier": "for all byte strings", "why_tests_cant": "The texts come from outside: the claim is about every byte string that the parser lets through, most of which no writer makes.", "anchors": ["nbc/util/ecdsa/keys.py:54-75", "nbc/util/ecdsa/keys.py:161-198", "nbc/util/ecdsa/der.py:62-68"]}
{"id": "C180", "title": "Private keys, partial keys, extended keys and addresses are told apart by their first letters", "statement": "An extended key is a text of 111 letters that starts with xpub or xprv (tpub or tprv on the test network); an address is a text of 56 letters that starts with 13, 15 or 16 (R on the test network); private keys start with 5, K or L and partial keys with 6. So no text of one kind passes for one of another.", "quantifier": "for all keys, hash functions, virtual chain numbers, wallets and paths", "why_tests_cant": "The letters depend on the hashes and the checksum through a number of up to 656 bits: a sample of keys says nothing about those near the boundaries between letters.", "anchors": ["nbc/wallet/hdwallet.py:123-144", "nbc/wallet/hdwallet.py:164-167", "nbc/util/key.py:102-112", "nbc/wallet/address.py:60-104", "nbc/util/base58.py:38-52"]}
{"id": "C181", "title": "An extended key says of which wallet it is", "statement": "Two wallets with one extended private key are the same wallet, and two wallets with one extended public key have the same public point, chain code, network and place in the tree; a private and a public extended key are never the same text. They have the same address.", "quantifier": "for all exportable wallets (all that are derived from a master) and hash functions", "why_tests_cant": "Injectivity over all pairs of wallets; tests compare a few texts with known ones.", "anchors": ["nbc/wallet/hdwallet.py:123-144", "nbc/wallet/hdwallet.py:24-27", "nbc/wallet/hdwallet.py:164-167"]}
