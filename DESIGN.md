# Formal model of nb-coin/new-bitcoin: design

Source under study: `/repo` (Python 2/3 code, read as text).  Deliverable: a Lean 4 model of the
code (`lean/Verif/Model`), small independent specifications (`lean/Verif/Spec`), helper lemmas
(`lean/Verif/Proofs`) and the property theorems (`lean/Verif/Props`).  The properties are in
`properties.jsonl` (C01 ...), their status in `MANIFEST.json`, the seeded-bug experiments in
`seeded/LOG.jsonl`.

## 1. Trusted base

* Lean 4.33.0's kernel and Mathlib's definitions (`ZMod`, `jacobiSym`, `Nat.Prime`,
  `WeierstrassCurve.Affine.Point` with its group law, ...), which appear in statements.
* Axioms: only `propext`, `Classical.choice`, `Quot.sound`.  No own axioms, no `sorry`/`admit`,
  no `native_decide`, no `bv_decide`.  Large closed computations use `decide +kernel`, i.e. kernel
  reduction with the kernel's built-in bignum arithmetic on `Nat`.
* The reading of Python by which each model definition mirrors its source lines (cited in the
  comment of each definition).  This is a manual translation: the code is not executed here.

## 2. Modelling conventions

* Byte strings are `List UInt8`; Python ints are `Int` (or `Nat` where the code can only meet
  non-negative values, said in the comment); exceptions are values of `PyErr` and a call that may
  raise has type `Py α = Except PyErr α`.
* `while` loops become recursions on an explicit fuel that is proved large enough (the proof
  that the fuel does not run out is the termination proof), or well-founded recursion.
* Python objects with mutable state (cipher modes, connections, the node) are records, methods
  are functions returning the new record; histories are lists of events, executions are folds or
  inductive reachability relations.
* Randomness, time, sockets, files and hash functions are outside the model: random draws, clock
  readings, `recv` results and partial-send sizes are *inputs* over which the theorems quantify.
  Hash functions (`hashlib`, `hmac`) are fields of the structure `Hashes`, constrained only by
  output length; every theorem holds for every such function.
* Python 2 or 3: the code base mixes both (`xrange`, `.decode('hex')`, `ord(data[-1])` beside
  `isinstance(.., integer_types)`).  Where the two differ the model takes a version flag or is
  named `..Py2/..Py3`, and the theorem says which one it speaks about.

## 3. What is modelled

| source (`/repo/nbc`) | model | not modelled |
|---|---|---|
| `util/base58.py` | `Model/Base58`, `Model/KeyText` (arguments that are text) | nothing |
| `util/key.py` | `Model/Key`, `Model/Keys` (compression), `Model/KeyText` (arguments that are text) | nothing |
| `util/hash.py` | the structure `Hashes` (abstract functions with fixed output lengths); `Model/Sha` has the real ones as one instance (`Sha.hashes`) | nothing |
| `util/ecdsa/numbertheory.py` | `Model/NumberTheory` | the self-test at the end |
| `util/ecdsa/ellipticcurve.py` | `Model/Curve` | the self-test (run on the model in `Tests/Curve`) |
| `util/ecdsa/ecdsa.py`, `curves.py` | `Model/Ecdsa`, `Model/Sha1` (`digest_integer`) | the self-test (run on the model in `Tests/Curve`) |
| `util/ecdsa/util.py`, `rfc6979.py` | `Model/Bytes`, `Model/Rand`, `Model/SeedText` (seeds that are bytes or text), `Model/Der` | `bits_and_bytes` (a float logarithm; its results are parameters) |
| `util/ecdsa/der.py`, `keys.py` | `Model/Der`, `Model/Pem`, `Model/Keys`, `Model/KeysSign` | nothing (hash functions are the abstract family `HashFamily`; `Model/Sha1` has the real ones as one instance) |
| `util/ecc.py` | `Model/Keys` (namespace `Ecc`), `Model/TwosComp` | nothing |
| `util/pyaes/*.py` | `Model/Aes`, `Model/AesTables` (the literal tables), `Model/AesModes` | nothing |
| `util/piecewise.py` | `Model/Piecewise`, `Model/Qr` | nothing |
| `util/__init__.py` | `Model/Util`, `Model/Heights`, `Model/Difficulty` | the URL request itself |
| `util/bootstrap.py` | `Model/Seeder` | DNS itself (outcomes are inputs) |
| `coins/*.py` | `Model/Coin`, `Model/CoinObject` | attributes nothing refers to |
| `node/__init__.py` | `Model/Portmap` | `miniupnpc` (a router's table and its answers are inputs) |
| `protocol/format.py`, `messages.py` | `Model/Struct`, `Model/Format`, `Model/Messages`, `Model/OwnMessages`, `Model/Alert`, `Model/Objects`, `Model/LogText` (whether `__str__` and `_debug` raise), `Model/LogLine` (their characters) | tracebacks |
| `wallet/address.py`, `hdwallet.py`, `__init__.py` | `Model/Wallet`, `Model/HDWallet`, `Model/HDMain`, `Model/WalletFile`, `Model/Passphrase`, `Model/Seed`, `Model/Readme` | JSON beyond the flat dictionaries `saveTo` writes (escapes, fractions, nesting; C54 and C126 leave the reader open), the terminal (the lines typed are inputs) |
| `node/connection.py`, `basenode.py`, `raw.py` | `Model/Node`, `Model/NodeTrace`, `Model/NodePoll` (with what `asyncore` does between its calls), `Model/NodeStop`, `Model/NodeClose`, `Model/ConnEq`, `Model/PeerTable` (two threads) | sockets (their results are inputs), the text of log lines |
| `util/ecdsa/_version.py` | `Model/Version` | `get_expanded_variables` (nothing calls it), what `verbose` prints, characters beyond ASCII; git (its answers are inputs) |
| `node/raw_.py` | `Model/RawScratch` | connections entered into its map from outside |

Not modelled at all: `node/darwin*`, the test file, `six`.

How far the translation can be trusted: `lean/Verif/Tests` runs the model, in the kernel and with real
hash functions, on the repository's own test values (RFC 6979, DER, the elliptic curve and ECDSA
self-tests, the seeded generator) and on published ones (test vector 1 of BIP 32, WIF, Base58, message
dumps of the Bitcoin wiki, the transaction and Merkle root of block 0).  These are tests, not proofs:
no property rests on them.  They would fail if a definition were translated wrongly in a way these
values show.

## 4. Plan per property

| id | model | proof |
|----|-------|-------|
| C01-C03 | `Model/Base58`: the four conversions, checksum variants | digit-list induction; Horner value of digits; leading zeros counted separately |
| C04-C06 | `Model/Key`: WIF and address functions over abstract hashes | C01-C03 plus interval bounds on the big-endian value fixing the first base58 digit |
| C07 | `Model/Bytes`: `number_to_string` via hex digits as the code does | hex digits as base-16 digits, pairing into bytes |
| C08 | `Model/NumberTheory.inverseMod` (loop on Int) | Bezout invariant on `uc,vc,ud,vd`, termination by the strictly decreasing remainder |
| C09 | `jacobi` recursion | strong induction, `jacobiSym` multiplicativity, reciprocity, values at 2 and -1 |
| C10 | `square_root_mod_prime`, polynomial helpers | Euler's criterion for p%4=3 and p%8=5; quotient ring F_p[x]/(x^2-bx+a) and Frobenius for the last branch |
| C11-C13 | `is_prime`, `next_prime`, `factorization` | Fermat + square roots of 1 in a field; table facts by kernel computation lifted by lemma; loop invariants |
| C14, C15 | `gcd2`.., `order_mod` | Euclid; invariant z = x^k mod m.  `order_mod` is false for x = 1 (mod m), x != 1: negation + partial |
| C16-C19 | `Model/Curve`: `Point` as option of coordinates with optional order | coordinates to `WeierstrassCurve.Affine.Point` over `ZMod p`; signed digit recoding invariant; C19 false (the check is vacuous) |
| C20 | constants | Pocklington/Lucas certificates, kernel-evaluated scalar multiplication |
| C21-C23 | `Model/Ecdsa` | field algebra in ZMod n, group homomorphism; C21 false when x(kG) >= n: partial with hypothesis r < n |
| C24-C28 | `Model/Keys` byte-level API | composition of C08-C23, C29; C25 false with witnesses |
| C29-C31 | `Model/Der` | list lemmas; C31 false at 128 bytes |
| C32, C33 | rejection loops over a stream of candidates | induction on attempts |
| C34 | rational model of `order / 2` rounded to binary64 | negation with witness; partial for the band outside |
| C35 | DER key records over a curve table | C30 |
| C36, C37 | `Model/Aes`: tables literally, key schedule, rounds with T-tables | table facts: complete 256-entry enumeration by kernel; GF(2^8) spec; linear algebra over bytes |
| C38-C42 | mode objects as state machines over an abstract block cipher, then AES | induction over chunk lists; carry loop for the counter |
| C43-C46 | wallet (de)serialisation over finite maps | C36, C38; negations for watch-only/compressed and public HD |
| C47-C51 | `Model/HDWallet` | group homomorphism; negations for vcn and from_extended_key |
| C52, C53 | `Model/Wallet` | C24, C26 |
| C54 | file system as a log of atomic steps with crash points | enumeration of the steps; negation for the truncation window |
| C55-C58 | `Model/Piecewise` | sums mod n; cyclic window combinatorics; base58 interval bounds |
| C59-C66 | `Model/Format`, `Model/Messages`: universe of field types with parse/binary | induction over the type universe |
| C67-C70 | `Model/Node`, `Model/NodeTrace` | invariants over event lists |
| C71-C78 | `Model/Node` | reachability invariants |
| C79-C82 | `Model/Util` | arithmetic, collision extraction |
| C83-C85 | `phi`, `carmichael`, `largest_factor_relatively_prime` of `Model/NumberTheory` | multiplicativity of the totient over the factor list; `Monoid.exponent` |
| C86 | `Point.__eq__` | coordinates modulo p; negation with a witness with unreduced y |
| C87 | `Model/Rand`: the seed-derived scalars | digit bounds; stream of the generator |
| C88 | `verifies` with `n - s` | negation of a point has the same x |
| C89 | the NIST curve constants | Pocklington chains and kernel-evaluated orders; for the order of P-521 also elliptic curve certificates (Proofs/Ecpp) |
| C90 | mode objects against SP 800-38A | induction over blocks, C37 |
| C91 | `get_address` | case analysis: every path raises |
| C92 | `Model/Pem`: base64 and PEM text character by character | bit-level specification of RFC 4648; induction over lines |
| C93 | `int_to_string`, `string_to_int` | digit induction |
| C94, C95 | `Model/KeysSign`: keys with a default hash, the six codecs | encoder/decoder pairs shown to agree, then C21/C88; `r` is not reduced: partial |
| C96 | `rfc6979.py` | inductive relation for steps d-h of RFC 6979, soundness and completeness of the loop |
| C97 | `from_pem`, `from_der` | false for verifying keys (always SHA-1), partial for SHA-1 |
| C98-C100 | `Model/Node`: `accept`, `addPeer`, the constructor of a connection | invariants: all addresses are ips, settings never change, every open connection was greeted; false for addresses with names |
| C101 | `items`, `heartbeat` | exact effect on every old connection; invariant on the last heartbeat |
| C102 | `handle_read` | C67; false below 4 GB: the length is believed before magic, command and checksum are looked at |
| C103 | all of `Model/Node` | invariant: without calls of `punish_peer` (there are none in the code) every score is 0 |
| C104 | `add_any_peer` | number of untried addresses decreases; false with the listener's own address in the book |
| C105 | `handle_message` | simulation of the frames handled by a list of messages |
| C106, C107 | `split_private_key` with its random draws as parameters | the pieces are exactly the lists with the right sum and positive draws; secrecy by exchanging pieces; one key is excluded: partial |
| C108 | `Model/Qr`: base32 and the QR texts of piecewise.py | digit-level base32 inverse; exact condition for the round trip, false for most sizes |
| C109 | `FtIPAddress` of `Model/Format` | groups as numbers; the splitting loop on texts built from groups |
| C110 | `hex_to_bin`, `bin_to_hex` of `Model/Util` | digit induction |
| C111 | `Model/Alert` | refinement of each paragraph to a wire type, then the cache |
| C112-C114 | `Model/Objects` | case analysis; the cache as a fold over uses; field by field |
| C115 | `Model/Seeder`: threads as lists of lookups, events | multiset invariant over interleavings |
| C116, C117 | `Model/Heights`: waiting as a relation over rational time; JSON values | induction over the threads; path relation |
| C118 | `Model/Portmap`: the router's table | loop invariant of the search for a port; negations with witnesses |
| C119-C121 | `Model/Coin`, `Model/Sha` (the real hash functions) | kernel computation of the one constant; C23, C25 |
| C122 | `Spec/Bip32` beside `Model/Wallet` | equality with CKDpriv and CKDpub through the group of secp256k1; paths by induction |
| C123, C124 | two copies of `Model/Node`, joined by equality of one's input with the other's output | output invariant (whole messages, version first, acknowledged if introduced) over all primitive steps; uniqueness of the division into frames; C63, C67, C100, C105 |
| C125 | `Model/Piecewise` | the loop on pieces that fit and do not fit the first one; invariant of the dictionary |
| C126 | `Model/HDWallet` (`loadFrom`) | case analysis; `json.loads` is any function |
| C127, C128 | `Model/Der`, `Model/Keys` against BIP 66's test (`Spec/Bip66`) | the shortest content of an integer; cutting a text by its lengths; C88 |
| C129, C130 | `Model/Format`, `Model/Messages`, `Model/Objects` against a grammar of texts (`Spec/Reading`) | soundness and completeness of each field type, with 'or all data are used up' for those that accept short data |
| C131 | `Model/LogText`: whether `str(message)` and `message._debug()` raise, per field type and message class; handling and sending with a log level | every value the reader returns can be printed unless it is a non-empty list of hashes in Python 3; frames and the node's own messages never differ |
| C132 | `Model/EC`, `Model/Ecdsa`, `Model/Keys`; the group of the curve is Mathlib's | Hasse's theorem is not used: at most 2p+1 points, the order n is prime and divides the count, n > (2p+1)/3, and no point has order 2 (the cubic has no root: certificate from X^p mod the cubic, computed by the kernel) |
| C133 | `Model/Rand` | the two functions as formulas; the number of bits (a float logarithm in the code) is a parameter |
| C134 | `Model/Piecewise` | each row of keys hides a piece from the groups seen, so C106 applies to it |
| C135 | `Model/Node` | each method of a connection is shown to change nothing else; over histories, a simulation by a node with one connection |
| C136 | `Model/Ecdsa` | the points with a given `r` are counted (at most four); each digest and each key gives its own point |
| C137 | `Model/Keys` | the usual computation from two signatures with one nonce, as a function of the texts |
| C138 | `Model/HDWallet` | the child's key less the left half of the HMAC, by induction over the path |
| C139 | `Model/Format`, `Model/Messages` against pairs of languages, complete and cut off (`Spec/Lenient`) | each field type reads exactly the texts of its pair; induction over items and fields |
| C140 | `Model/Format`, `Model/Messages`, `Model/Node` against the values that constructors make (`Spec/Built`) | by field type: what is accepted and written is in the relation; the relation is within the language of C139; every message of the primitive changes of a node is of this kind |
| C141 | `Model/Difficulty`: floats as rational numbers, the division rounded to 53 bits | the doubles as a set of rationals; no tie is possible because the dividend has 16 bits; two targets differ by one part in 2^23, more than the rounding |
| C142 | `Model/HDMain` (`pubkey`, `main`), `HDWallet.sign`, `verify` | induction along the path on C47 with separate draws for the two sides; signatures by C24; addresses are equal exactly when the last draws agree, and `main` always raises, so the full claim is false |
| C143 | `Model/Node` (`addAddresses`, `commandVersionAck`, `commandGetAddress`) | entries as 30 bytes by their own small specification; the book as a finite map, last entry wins; the time stamp of own peers is the age of the last byte, so the second half is false, and 1000 other entries keep such peers out of every answer |
| C144 | `Model/NumberTheory` (`isPrime`, `mrRound`, `mrInner`, `rounds`) | strong probable primes as in the textbook, the table of rounds as a plain function, the bases as the primes with fewer than t primes below; induction over the squarings. The second half is false: a product p(2p-1) of 1303 bits is accepted |
| C145 | `Model/Rand` (`randrange`), `Model/Wallet` (`Address.generate`) | probability as counting of sequences of answers; a permutation of the answers exchanges two scalars; failures counted exactly; bound by one big-integer inequality. The figure 2^-60 is false for the order 256, and NIST521p accepts less than one string in 128 |
| C146 | `Model/WalletFile` (flat JSON text: writer, reader, the dictionary read) | the reader inverts the writer piece by piece; induction on the entries shows that a cut text either is refused inside a piece or ends where a separator must follow; entries in any order by permutation |
| C147 | `Model/Readme` (the programs line by line, `__str__` of both classes) | composition of C53, C45, C46, C146, C24; cancellation of the fixed parts of the text |
| C148 | `overshootModulo`, `prng` (Model/Rand) | C87's formula for the result, a hash function built to give any chosen generator output, Mathlib's count of a residue class below a bound; the distance by rational arithmetic |
| C149 | `Model/NodePoll` (the collecting part of `asyncore.poll`, `asyncore.loop`, truth of a node) | exact condition for a turn to raise, by induction over the map with C78; false for silent peers: chosen by the heartbeat, with unread output, after a sleep of the computer; what holds by induction over the turns |
| C150 | Model/NodeStop: a subclass of BaseNode as three arbitrary functions; `handle_read`, `asyncore.read`, the loop and `serve_forever` over it | with BaseNode's own methods it is the loop of C149 (`C150_base`); induction on the turns for exactly when the loop ends with StopNode; a handler that raises it is the same as one that returns (`C150_handler_false`); what is open afterwards |
| C151 | `Model/NodeClose`: `close`, and the turns of the loop with the call in them at one of three moments | without the call the loop of C149 (`C151_none`); closing is for ever (`C151_deaf`); Python 2 by induction on the turns; Python 3 by the invariant that nothing was received and a connection is open |
| C152 | `Model/ConnEq`: `__eq__` with the interpreter's limit as fuel, lookups by identity, hash and `==` as Python makes them | induction on the limit and on the entries |
| C153 | Model/Node | potential function: bytes sent and queued plus a multiple of the bytes not yet consumed, over the frames of each read; sizes from the texts of constructed messages (C140) |
| C154 | `_aesDecrypt`, `load_from_cfg` of both classes (Model/Wallet, Model/HDWallet) | the texts that open are characterised: decryption is total and encryption undoes it, the header is what `int(s, 16)` takes; for one address the rest must be a key text with its checksum; for an HD wallet any number in range will do: an injection of keys and paddings into the files that open, and a concrete file and passphrase (by evaluating FIPS-197) |
| C155 | the models of C46 and C154 | CBC written as a chain of a one-to-one block function, so that a change of one block leaves the blocks before it; the header is in the first block |
| C156 | the models of C46 and C154 | two chains of the same block function agree in a block exactly if the texts agree up to it, as the initialisation vector is always zero and no salt is used |
| C157 | The characters of `str(message)`, `_debug()`, `invalid_command` and `log` (`Model/LogLine`) | by the types of the fields: what was read from the wire is shown as numbers, hexadecimal digits, addresses or quoted strings; `repr` is undone by reading a literal; false in Python 2 for user agents, rejections (debugging) and alerts (protocol), where any line can be put into the log |
| C158 | `Model/Passphrase`: passphrases as bytes or text, `strip`, the loop at the prompt | the ends of stripped lines; the first byte of the key; UTF-8 against latin-1 at the first letter outside ASCII |
| C159 | Model/Node (clock readings are arguments of the events, in any order) | a run is an arbitrary list of events; only `items` notes a heartbeat (invariant over primitive steps), C101_items and C78_poll for the two comparisons, induction over the events and over the round of polls |
| C160 | `Model/KeyText`: `scrub_input`, base58 and WIF reading, their callers and the constructor of `Address` for values that are bytes or text | a text all of whose characters are in the alphabet is ASCII and its encoding is the byte string; any other character ends in a ValueError on both ways |
| C161 | `Model/Node` | C77's invariant of dialled addresses; version messages that say the same give the same state; C124 with both nodes the same one and two of its connections; C143 and C73 need no handshake |
| C162 | `Model/Seed` (`from_master_seed` for bytes and text, a path of children) | The keys, chain codes, fingerprints and exceptions are the same, by induction over the path [C162_keys_partial]; text outside latin-1 is refused [C162_refused]. False of addresses [C162_address_false] and of UTF-8 seeds [C162_utf8_false]. |
| C163 | `Model/TwosComp` | Read back exactly for values that fit [C163_signed_partial, C163_back]; widths below one raise [C163_width]. False of wider values [C163_wide_false]. |
| C164 | `Model/PeerTable` (the dictionary of CPython 3 with its iterator, changed by the other thread between the steps) | Invariants of the walk by induction over the steps: what is listed was there [C164_listed], what stayed is listed unless the dictionary is moved [C164_kept_partial], only `RuntimeError`, only if the size changed [C164_raised], Python 2 is safe [C164_py2, C164_alone_partial]. False in Python 3 [C164_changed_false, C164_stops_false, C164_missed_false]. |
| C165 | `Model/RawScratch` | By induction over the turns. False: the listener is in another map [C165_py3_false, C165_py2_false], and `handle_accept` uses a name that is not bound [C165_accept_false]; without connections the listener stays open [C165_quiet_partial]. |
| C166 | `Model/OwnMessages` (the metaclass, a table by class number, `Message.parse` over it) | Exactly what a declaration does [C166_declared_partial], its persistence by induction over later declarations [C166_direct], sending and receiving [C166_received_partial]; the package's own declarations give the table of `Model/Messages` [C166_module, C166_parse]. False: the flag looked at is that of the base [C166_set_false, C166_below_false], an inherited command replaces the base [C166_replaced_false], long commands are never received [C166_long_false]. |
| C167 | the constructor with the answers of the system (socket, bind, listen, name), the system's number for an address in use, and whether asyncore looks for attributes in the socket | case analysis; `Starts` of C124 and `Presentable` of C98 follow for new nodes, so that C98, C100, C124 apply to what the constructor gives |
| C168 | `Node.stepF`, the events with a limit of open sockets (accept raises EMFILE, which asyncore passes on and which closes the listener), and `Node.pollF`, the turn of the loop with file numbers (select refuses those from 1024 on) | counting: C77_unbounded gives the number of sockets, the pigeonhole principle a number that select refuses; C98 while files are left |
| C169 | `Model/KeysUnchecked`: `from_string` with its argument | the vacuous checks of the order (C19) and the number of points (C132); false with a curve of 33 points |
| C170 | `Model/Node` | invariants of the primitive changes; for any list of ips a history that bans them all, by induction, with C74, C75 and C98 |
| C171 | `Model/Commify` | a specification of grouped texts apart from the loop; induction over the groups from the end, with the lemmas on decimal digits |
| C172 | `AnyWallet.dump`, `AnyCfg.load`, `saveTo`, `loadFrom` | the key schedule is the same in both Pythons for keys shorter than 32 bytes (induction on its loop); the passphrase gives 16 bytes; then by cases on the entries |
| C173 | `Model/CoinObject` | the order by induction on the names; the dictionary against the list of what was stored, by induction over its history; false in Python 3, which does not call `__cmp__` |
| C174 | `Address.generate`, `saveTo`, `loadFrom`, `Address.init`, `Address.sign`, `Address.verify` | composition of C53, C172, C26 and C52; false for a private key whose point is found by `exists_key` |
| C175 | `Model/Version` | a specification of the text git writes and of the tags in it; the sorted list has the alphabetically first one in front (order and sorting by induction) |
| C176 | `Model/SeedText` (what stands for the seed in the hashed text: `repr`, UTF-8, ASCII) over `Model/Rand` | the hashed text determines counter and seed text; the seed text determines the seed among seeds of one kind; so a hash function can be built with any scalars wanted for all seeds at once |
| C177 | `Model/Rand` (`tryTryAgain`) | counting of the strings the generator may give, as in C145: exchanging two scalars in all tries is a bijection; the strings that are not accepted are counted by their remainder; geometric sum for the average |
| C178 | mkPublicKey, VerifyingKey.toStr/toDer/toPem, keyFromPoint, HDWallet.childKey, sharedSecret | cases on the point; values of fixed-length texts; the group law for multiples of the order |
| C179 | VerifyingKey.fromDer, SigningKey.fromDer, removeSequence, readLength | inversion of the parsers down to fromString, then the round trips of C35; for the last sentence, the slice that never checks the length |
| C180 | toExtendedKey, publickeyToAddress, Address.init, HDWallet.address, privkeyToWif, b58encode | bounds on the number between multiples of powers of 58; first digits by induction on the number of digits left |
| C181 | toExtendedKey, extData, pointCompress, HDWallet.address | Base58Check is injective; the fields are read back from the record (C51); two ordinates over one abscissa differ in parity |

Properties found false of the code are kept in full in `properties.jsonl`; the model then has a
theorem named `Cxx_..._false` with a concrete witness, plus `Cxx_..._partial` for what holds.

## 5. Where the code disagrees with its users' expectations

Each line is a theorem (named in brackets), not an observation made by running the code.

Number theory and curves
* `order_mod` answers 2 for x = 1 (mod m), x != 1, and raises for negative x [C15_order_mod_false].
* `is_prime` uses only the bases 2 and 3 above 1299 bits: a composite of 1303 bits is taken for a prime, returned by
  `next_prime` and left whole by `factorization` [C144_prime_false, C144_next_false, C144_factorization_false].
* `randrange` gives up with probability above 2^-57 for the order 256, where the comment says 2^-60, and for NIST521p more
  than 127 of 128 strings are thrown away [C145_cutoff_false, C145_curves_false].
* The `Point` constructor's check `self * order == INFINITY` reduces the order modulo itself and never fires
  [C19_declared_order_false].
* `Point.__eq__` compares unreduced coordinates [C86_point_equality_false].
* `sign` does not reduce r modulo n: a nonce point with x >= n gives a signature that does not verify
  [C21_sign_verify_false, C24_sign_verify_false].
* `ecc.verify` lets seven kinds of exception escape instead of answering False [C25_verify_false].
* `decompress_public_key` refuses points where the one of y and p - y that is a square is >= n [C26_decompress_compress_false,
  C28_compressed_false].
* `encode_integer` writes a single length byte: 128-byte integers are unreadable [C31_integer_false].
* `rfc6979` divides with `/`: Python 3 may take a different nonce after the first [C33_division_false].
* `sigencode_*_canonize` compares with the float `order / 2`: s slightly above n/2 may stay [C34_low_s_false].

AES
* 32-byte keys raise `TypeError` in Python 3 [C36_python3_false]; feeders and `strip_PKCS7_padding` are unusable
  in Python 3 [C41_python3_false, C42_python3_false].
* An empty chunk finishes a feeder [C41_empty_chunk_false]; padding bytes are not compared [C42_malformed_false].

Wallets
* Only the first 16 bytes of a passphrase matter [C44_same_start_false].
* A compressed watch-only address is saved as an uncompressed one, with another address
  [C45_watch_compressed_false]; decompressing it raises [C52_watch_false].
* `point_decompress` ignores which root it was given: public HD wallets come back with the opposite point
  [C46_public_false].
* Children get a random chain number, hence a random address [C48_vcn_false].
* `from_extended_key` always raises [C50_reimport_false].
* `saveTo` truncates the file before writing [C54_crash_false].
* Split keys lose the compression flag [C55_compressed_false]; `xrange` makes splitting impossible in Python 3
  [C55_python3_false, C57_python3_false]; partial key-sets recombine only for cyclically consecutive groups
  [C57_any_groups_false]; `get_address` always raises [C91_get_address_false].
* The pieces of a split key but a random one exclude one key, their sum [C106_excluded_false]; the computed piece may
  be 0, which is no private key [C107_zero_false].
* QR texts of partial keys get the wrong padding unless the number of keys is 3 or 4 modulo 5
  [C108_padding_false], lose keys whose indices have two gaps [C108_gap_false] and do not exist in Python 3
  [C108_python3_false].
* The IPv6 addresses `::` and `::ffff:1.2.3.4` cannot be sent, and `:1` is accepted [C109_short_false].
* `hex_to_bin` and `bin_to_hex` do not work in Python 3 [C110_python3_false].
* An alert with a broken payload raises only the first time it is looked at [C111_again_false].
* Comparing two outputs of one transaction is a NameError [C112_same_transaction_false].
* Two users of one DNS seeder can both see an address that only one gets [C115_two_users_false].
* Two programs of the README cannot run: the extended keys (`from_extended_key` raises) [C147_extend_false], and
  `addr.publicKey().verify(..)` (a byte string has no `verify`) [C147_sign_false].
* A block height inside a JSON list is never found [C117_list_false].
* A listening node does not start except on darwin [C118_platform_false]; when its port is taken at the router it
  deletes the other host's mapping and leaves its own [C118_taken_false]; it may ask for port 65536
  [C118_full_false].
* An alert with an empty or malformed signature raises [C120_raises_false].
* `get_coin('anything', 'NBC')` is Newbitcoin [C121_both_false].
* `ecc.verify` accepts infinitely many texts of each signature (bytes behind the sequence are ignored), and
  `(r, n-s)` next to `(r, s)`; transactions signed with it are malleable
  [C128_texts_false, C128_negated_false].
* `from_master_seed` reduces a left half of at least n modulo n, where BIP 32 calls the seed invalid
  [C122_master_false].
* `VerifyingKey.from_pem`/`from_der` forget the default hash function [C97_verifying_key_false];
  `sign_digest_deterministic` without `hashfunc` raises `TypeError` [C96_default_hash_false].
* `randrange_from_seed__truncate_bytes` and `..._truncate_bits` always raise `TypeError` in Python 3
  [C133_python3_false]; in Python 2 the mask of the second keeps the wrong number of bits [C133_bits_false].
* Every partial key shows four bytes of the double hash of the whole key [C134_checksum_false].
* Whoever knows a private key finds, for each signature it makes, a second digest for which it is accepted
  [C136_other_digest_false].
* Two signatures made with the same nonce give the private key away [C137_repeated_false].  Nothing in the code ties
  the nonce to the message.
* The public part of an HD wallet and the private key of a descendant that is not hardened give the wallet's private
  key [C138_descendant_false]; this is so in BIP 32 too.
- Payloads that end too early are accepted when the field that is cut off is a byte string or hash: `ping` with three
  bytes is a ping with a nonce of three bytes [C139_short_ping]; C139_exact says exactly where a cut is tolerated.
- `format.py` validates fields in the constructor only: a message that was read keeps what was cut off, and is written again
  in that form [C140_resent_false]. Of 65535 bytes the length is written in five bytes, where Bitcoin has three
  [C140_bitcoin_false].

Protocol
* A transaction with a script of 65535 bytes in Bitcoin's encoding gets the hash of another text
  [C129_compact_false]; different texts are read as the same transaction [C129_texts_false].
- C131: in Python 3 at level 0 (`LOG_LEVEL_PROTOCOL`) `FtArray.str` joins bytes, so a `getblocks`, `getheaders` or
  `merkleblock` with hashes is neither handed to its handler [C131_hashes_false] nor sent [C131_send_false]; an alert that
  breaks off, or (Python 3) names a sub-version, is not handed on at the levels 0 and 1 [C131_alert_false].  `BaseNode` has
  no handler for these messages, so only nodes derived from it are affected [C131_frames].
* `FtVarInteger.parse` tests 0xfd twice: 9-byte forms are read as 255 [C59_varint_false].
* Fields accept values they cannot write [C62_validated_false]; truncated payloads of eleven message types parse
  [C65_truncated_false]; `getblocks` and `getheaders` have no bound on their elements [C66_elements_false].
* The Merkle root does not bind the list of transactions (CVE-2012-2459) [C80_binds_false].
* `get_target` works in Python 2 only and `verify_target` with no coin [C81_python3_false, C81_verify_false].
* Header objects with float time stamps or large counts differ from `get_block_header` [C82_header_false].

Node
* 2501 addresses fit into a book limited to 2500 [C71_bound_false].
* `getaddr` is never answered in Python 3 [C72_reply_false].
* Bans are stored by ip but looked up by (ip, port): they refuse nobody [C74_reconnect_false].
* Incoming connections and `add_any_peer` are not bound by `max_peers` [C77_exceeded].
* A connection on which nothing was ever received is never closed for silence [C78_silent_false].
* A node bound to a name or to all interfaces stops listening at the first incoming connection [C98_listening_false].
* A peer that is silent for three hours can end the node's event loop: `Connection.readable` closes the connection,
  `writable` of the same turn still answers yes if something is queued, and `select` fails on the closed file, outside
  of every exception handler.  The output may be the `getaddr` of the same turn's heartbeat, the ping queued by the same
  call (always so after the computer has slept for three hours), or bytes the peer does not read
  [C149_heartbeat_false, C149_sleep_false, C149_unread_false, C149_loop_false].
* **C150** `StopNode` stops the node only if `begin_loop` raises it. Raised in a `command_*` method or in `connected`
  it is caught and logged like any error in a handler, and in `invalid_command` it closes the connection; the node goes
  on. A node that has stopped has closed its listener but not its connections, which stay open
  [C150_handler_false, C150_invalid_false, C150_connections_false].
* **C76** A node whose listener has been closed (see C151) records what a version message says but does not guess its
  external ip again [C76_closed_false].
* **C135** On a node that is bound to a name, a peer that connects ends the listener (C98) and with it the answers to the
  version messages of the others [C135_deaf_false].
* **C151** `node.close()`, with which the program at the foot of `basenode.py` ends, closes only the listener. Under
  Python 2 the loop in the other thread never returns; under Python 3 it goes on while a connection is open, and a
  close that comes just before `select` ends it with an exception. `close` of `asyncore` assigns `self.connected = False`,
  which hides the method `connected` of the node: version messages that come later raise TypeError and are not acknowledged
  [C151_python2_false, C151_goes_on_false, C151_listed_false, C151_unanswered_false].
* **C152** `Connection.__eq__` is `return self == other`, which calls itself: comparing connections raises
  RecursionError, and so does looking one up in a list unless it is the first
  [C152_equal_false, C152_list_false, C152_set_false].
* **C153** Nothing bounds what is queued for a peer that does not read (`connection.py:213-220`): every ping adds 32 bytes.
  In Python 2 `getaddr` makes an amplifier of a node with a full address book, 30027 bytes for 24, as often as a peer
  asks (`basenode.py:328-341`). [C153_bounded_false, C153_amplified_false].
* **C154** Nothing in the file of an HD wallet tells a wrong passphrase: the two digits of the length are all that is
  checked (`hdwallet.py:269-279`), so one in about 65536 opens it, as another wallet. One saved with `correct` is opened
  with `bain`. [C154_hd_false].
* **C155** An encrypted HD wallet is not protected against changes (`address.py:15-30`, `hdwallet.py:265-286`): the last 32 of
  the 48 bytes may be replaced by anything, and the file opens with the right passphrase as a wallet with another key. The
  chain code is stored as it is and never checked. [C155_hd_false, C155_plain_false, C155_chain_false].
* **C156** `_aesEncrypt` uses no salt and an initialisation vector of zeros (`address.py:15-30`): files saved with the same
  passphrase show whether the keys are the same or begin alike. [C156_hd_false].
* **C157** In Python 2 `_debug` puts the user agent of a version and the texts of a rejection into the log as they are,
  and `str` of an alert its sub-versions: a newline in them begins a line of the peer's choice, which may name another
  peer. [C157_reject_false, C157_version_false, C157_alert_false].
* **C158** The prompt strips what is typed, and in Python 3 encodes it in latin-1: a passphrase that begins with a blank
  can never be typed, and a wallet saved with the UTF-8 bytes of an accented word is decrypted with another key when the
  word is typed. [C158_white_false, C158_utf8_false, C158_alphabet_false].
* **C159** The node measures with the time of day (`time.time()`): set back, the clock stops the heartbeat until it has caught up
  (`now - last > 10`); set forward by more than three hours, it closes every connection
  (basenode.py:276-279, connection.py:106-119) [C159_back_false, C159_forward_false].
* **C160** A key that is text: `scrub_input` refuses `unicode` in Python 2 (base58.py:20-25), and `Address` asserts
  `type(privKey) == bytes`, so that a key read from a file as text is refused in Python 3 (address.py:68,83), while
  `privkey_from_wif` takes it [C160_unicode_false, C160_wallet_false].
* **C161** The nonce of the version message is sent but never compared (connection.py:67, basenode.py:321-322): a node that
  reaches itself under the address its router shows becomes its own peer; and messages are handled before, or without, any
  handshake (connection.py:186-211) [C161_nonce_false, C161_self_false, C161_early_false].
* **C162** A seed and a path give the same keys again, but not the same addresses: each constructor of a child draws its
  virtual chain number anew, and the number given for the master does not reach its children. A seed with letters outside
  ASCII typed as text is encoded in latin-1, so the same words as UTF-8 bytes are another wallet
  [C162_address_false, C162_utf8_false].
* **C163** `twos_comp` subtracts 2^bits at most once and never cuts its argument down, so a value wider than `bits` is not
  brought into the signed range [C163_wide_false].
* **C164** The table of connections has no lock. In Python 3 a connection added or removed by the program's thread (also by
  `node.close()`, as at the foot of `basenode.py`) while the heartbeat lists the peers raises `RuntimeError`, which nothing
  catches: the serving thread ends [C164_changed_false, C164_stops_false]. One removed and one added can hide a third one from
  `node.peers` without an exception [C164_missed_false].
* **C165** The node of `raw_.py` enters its listener into the map of `asyncore`, but runs the loop over its own, which is
  empty: under Python 3 `serve_forever` returns at once, under Python 2 it sleeps for ever. A program that polls the listener
  itself gets a `NameError` (`addr`) for the first connection, and the listener is closed
  [C165_py3_false, C165_py2_false, C165_accept_false].
* **C166** `_AutoRegister` looks at `not_regist` of the base, not of the class: `FilterLoad`, `FilterClear` and `MerkleBlock`,
  which set it, are registered, and a class derived from one of them is not, whatever it sets. A class that keeps the command
  of its base replaces the base. A command of more than twelve characters is never received
  [C166_set_false, C166_below_false, C166_replaced_false, C166_long_false].
* **C167** `BaseNode()` raises AttributeError on Python 3.11, whose `asyncore.dispatcher` no longer finds `getsockname` in
  the socket (`basenode.py:81`); so does any address with port 0. An address in use is recognised by the number 48, which
  it has on darwin only. The socket of a constructor that fails is not closed
  [C167_default_false, C167_in_use_false, C167_left_open_false].
* **C168** `handle_accept` looks at no limit. One peer that opens as many connections as the process may have files makes
  `accept` raise, on which `asyncore` closes the listener for good; where more than 1024 files are allowed, `select` raises
  and the loop ends [C168_files_false, C168_select_false, C168_flood_false].
* **C169** `from_string(..., validate_point=False)` on a curve of a program's own with cofactor 3: the point `(3, 9)` of
  order 3 is taken for a public key.  `Point.__init__` and `Public_key.__init__` both compute `order * point`, which
  reduces the order modulo itself first, so neither sees it [C169_own_curve_false].  On the six curves of the table
  nothing is let in (C169_same).
* **C170** The table of bans is never cleaned: `handle_accept` deletes the entry of the pair of ip and port, and the
  entries are under ips (as in C74).  An ip that was banned stays in the table in every later history
  [C170_kept_false], and for any list of ips there is a history after which all of them are in it for ever
  [C170_grows_false].
* **C173** In Python 3 `__cmp__` (`nbc/coins/coin.py:42-43`) is never called: two objects of the same coin are different, what is
  stored under one is not found under the other, and coins cannot be sorted [C173_python3_false]. In Python 2 coins are
  equal by name but hashed by symbol, so that equal coins can be different keys [C173_symbol_false]; and comparing a coin with
  something that has no name raises AttributeError [C173_other_false].
* **C174** A new address whose point has a square root of `y ^ 2` at or above the group order has no watching wallet: its own
  compressed public key is refused (the defect of C26) [C174_watch_false].
* **C176** A signing key derived from a seed of bytes is not the same in Python 2 and Python 3: `"prng-%d-%s" % (counter, seed)`
  renders bytes as their `repr` in Python 3 [C176_pythons_false], so that `b'ab'` and the text `"b'ab'"` have the same key
  [C176_kinds_false]. Python 2 raises `UnicodeDecodeError` for every seed with a byte above 127: of the seeds the comment
  recommends, `os.urandom(curve.baselen)`, one in `2 ** baselen` can be used [C176_python2_false].
* **C177** `bits_and_bytes` counts bits with `int(math.log(order-1, 2)+1)`, which is one too many for orders just below a power
  of two (257 for secp256k1, and for all curves but NIST256p): more than half of the tries are then wasted, though the
  comment says less than half [C177_half_false].
* **C179** "No two texts are read as one key": the slice in `remove_sequence` does not check that the text is as long
  as it claims, so a claimed length above the real one is accepted [C179_length_false]; every public key on SECP256k1
  is read from the texts with claimed length 86 to 127 [C179_forms_false].  What follows the curve in a private key is not read: its public key may be missing
  or of another key [C179_tail_false].
* **C181** "Wallets with one extended key have the same address": the virtual chain number is part of the address and is
  not in the extended keys [C181_vcn_false].
* `handle_accept` does not look at `max_peers`: the map grows without limit [C77_unbounded].
* `add_peer` with a host name returns `False` but leaves an open connection, which is never greeted
  [C99_addPeer_false, C100_first_false].
* Twenty bytes make the node buffer four gigabytes [C102_buffer_false].
* Nothing raises a ban score [C103_banned_false].
* A peer that sends the node its own address stops it from trying later entries of the book [C104_tried_false].
* The time stored for a node's own peer is the age of its last byte, not a time; a thousand other entries keep it out of every
  answer to `getaddr` [C143_peer_false, C143_hidden_false].
