{"id": "C01", "title": "Bencode write/parse round trip", "statement": "Whatever tree of integers, byte strings, lists and dictionaries is written with the bencode writer, parsing the produced bytes succeeds, leaves no unread bytes, and navigating the parsed objects yields exactly the tree that was written.", "quantifier": "every bencode value of every shape, depth and size up to the documented 16-bit sibling-offset limit", "why_tests_cant": "The domain is an infinite recursive datatype; samples cannot cover nesting, empty containers, keys that look like numbers or binary strings containing delimiters.", "anchors": ["mtTorrent/utils/BencodeWriter.cpp: BencodeWriter::*", "mtTorrent/utils/BencodeParser.cpp: BencodeParser::parse, internalParse, parseList, parseDictionary, parseString, parseInt"]}
{"id": "C02", "title": "Bencode parsing terminates inside the buffer", "statement": "Parsing an arbitrary byte buffer (a DHT datagram, a tracker reply, a .torrent file) always terminates and never reads a byte outside the buffer.", "quantifier": "every finite byte string", "why_tests_cant": "It is a claim about all 256^n inputs; the failing ones are adversarial (negative lengths, lengths one past the end).", "anchors": ["mtTorrent/utils/BencodeParser.cpp: BencodeParser::internalParse, parseDictionary, parseString, NOT_END_OF_ELEMENTS"]}
{"id": "C03", "title": "Info hash covers exactly the info dictionary", "statement": "The torrent id computed for a .torrent file is the SHA-1 of exactly the bytes of its info dictionary, whatever keys surround it or follow inside it.", "quantifier": "every bencoded torrent file with an info dictionary", "why_tests_cant": "Depends on every key order and on every possible content after the info dictionary.", "anchors": ["mtTorrent/utils/TorrentFileParser.cpp: generateInfoHash, TorrentFileParser::parse"]}
{"id": "C04", "title": "Torrent layout maps files onto pieces without gaps", "statement": "For every file list of a torrent, the reported start/end piece and in-piece offsets of each file are those of its byte range in the concatenation of all files: consecutive files are adjacent and the last piece has the size left over.", "quantifier": "every piece size and every list of file sizes (including zero and exact multiples of the piece size)", "why_tests_cant": "Boundary cases (file ending exactly on a piece boundary, empty files) form an infinite family over sizes.", "anchors": ["mtTorrent/utils/TorrentFileParser.cpp: parseTorrentInfo", "mtTorrent/Core/Api/InterfaceImpl.cpp: TorrentInfo"]}
{"id": "C05", "title": "Hex text round trip", "statement": "Rendering any bytes as hex and decoding the text returns the bytes; decoding is case-insensitive.", "quantifier": "every byte string and every letter case", "why_tests_cant": "All byte strings of all lengths.", "anchors": ["mtTorrent/utils/HexEncoding.cpp: hexToString, decodeHexa"]}
{"id": "C06", "title": "Base32 decoding inverts RFC 4648 encoding", "statement": "Decoding the base32 form of any info hash (or other byte string of a multiple of 5 bytes) gives back the bytes; for other lengths the bytes followed by padding bits.", "quantifier": "every byte string", "why_tests_cant": "All byte strings; bit regrouping errors only show for specific lengths.", "anchors": ["mtTorrent/utils/Base32.cpp: base32decode"]}
{"id": "C07", "title": "URL encoding round trip", "statement": "URL-decoding the URL-encoding of any bytes returns the bytes, and the encoded form contains only unreserved characters and %XX escapes.", "quantifier": "every byte string", "why_tests_cant": "Every byte value in every context.", "anchors": ["mtTorrent/utils/UrlEncoding.cpp: UrlEncode, UrlDecode"]}
{"id": "C08", "title": "Magnet link fields", "statement": "For a magnet link built from an info hash (hex or base32), an optional display name and trackers, adding it yields exactly that hash, name and tracker list.", "quantifier": "every hash, name and tracker list, every parameter order", "why_tests_cant": "Infinite family of links and escapes.", "anchors": ["mtTorrent/utils/TorrentFileParser.cpp: TorrentFileMetadata::parseMagnetLink, parseTorrentHash"]}
{"id": "C09", "title": "Blocks tile a piece", "statement": "For every piece of every torrent the block requests enumerate disjoint, consecutive ranges of at most 16 KiB that cover the piece exactly; every byte of the torrent belongs to exactly one block.", "quantifier": "every total size, piece size and piece index", "why_tests_cant": "Arithmetic over unbounded sizes with remainder corner cases.", "anchors": ["mtTorrent/Core/Api/InterfaceImpl.cpp: TorrentInfo::getPieceBlockInfo, getPieceBlocksCount, getPieceSize, makePieceBlocksInfo"]}
{"id": "C10", "title": "Progress counters are exact", "statement": "After any history of received pieces, revoked pieces and selection changes, the counts of received, selected and selected-and-received pieces equal what counting the pieces gives, and the finished/selection-finished answers agree with them.", "quantifier": "every history of operations on every number of pieces", "why_tests_cant": "Histories are unbounded; counters drift only after particular sequences.", "anchors": ["mtTorrent/Core/PiecesProgress.cpp: PiecesProgress"]}
{"id": "C11", "title": "Received bytes are exact", "statement": "The number of received bytes reported is the sum of the sizes of the received pieces, and equals the torrent size exactly when everything is received.", "quantifier": "every size, piece size and set of received pieces", "why_tests_cant": "Wrong only for particular residues (size a multiple of the piece size).", "anchors": ["mtTorrent/Core/PiecesProgress.cpp: getReceivedBytes, getReceivedSelectedBytes", "mtTorrent/Core/Torrent.cpp: finishedBytes, dataLeft"]}
{"id": "C12", "title": "Bitfield exchange round trip", "statement": "The bitfield sent to a peer, read back with the same piece count, denotes the same set of pieces; spare bits are zero; no byte outside the received bitfield is read.", "quantifier": "every number of pieces and every set of owned pieces, every received bitfield", "why_tests_cant": "All subsets of all sizes.", "anchors": ["mtTorrent/Core/PiecesProgress.cpp: toBitfieldData, toBitfield, fromBitfieldData"]}
{"id": "C13", "title": "A piece is wanted exactly when a selected file needs it", "statement": "After any sequence of selecting and unselecting files, a piece is selected for download iff some selected file has data in it.", "quantifier": "every file layout and every history of selection changes", "why_tests_cant": "Needs all layouts where several (small) files share a piece.", "anchors": ["mtTorrent/Core/Files.cpp: Files::select", "mtTorrent/Core/PiecesProgress.cpp: select"]}
{"id": "C14", "title": "Storage is a faithful linear address space", "statement": "Data stored for a piece block is what later loads of any overlapping range return, across file boundaries and after any further stores; a store changes no byte outside the stored range.", "quantifier": "every file layout, every history of stores, every load range", "why_tests_cant": "Histories and layouts are unbounded and a wrong offset only corrupts particular overlaps.", "anchors": ["mtTorrent/Core/Storage.cpp: storePieceBlocks, loadPieceBlocks, getFileBlockPosition"]}
{"id": "C15", "title": "Write cache is transparent", "statement": "Reading a piece through the write cache returns, at every position, the latest block stored for it (cached or flushed), regardless of how stores, flushes and reads interleave.", "quantifier": "every history of stores, group flushes and reads", "why_tests_cant": "Interleavings of background flushes with stores are unbounded.", "anchors": ["mtTorrent/Core/DownloadStorage.cpp: WriteCache::storeBlock, readBlocks, flush"]}
{"id": "C16", "title": "Write cache never overruns its buffers", "statement": "Blocks of legal size are copied inside the group's buffer and live blocks never overlap each other there.", "quantifier": "every sequence of stores and flushes", "why_tests_cant": "Buffer overruns depend on accumulated history.", "anchors": ["mtTorrent/Core/DownloadStorage.cpp: WriteCache::Group::getBufferPart, full"]}
{"id": "C17", "title": "Pieces are announced to peers only after verification", "statement": "A have message is sent only for a piece whose stored content matched its hash; a piece that fails the check is no longer counted as received and is downloaded again; the download is reported finished only when every selected piece passed.", "quantifier": "every history of received blocks, check results and selection changes", "why_tests_cant": "Asynchronous check completions interleave arbitrarily with block arrivals.", "anchors": ["mtTorrent/Core/Downloader.cpp: pieceBlockReceived, pieceChecked", "mtTorrent/Core/FileTransfer.cpp"]}
{"id": "C18", "title": "A piece is complete exactly when all its blocks arrived", "statement": "Duplicate, reordered or repeated blocks never complete a piece early nor prevent its completion; the remaining-block count is exact.", "quantifier": "every arrival order with duplicates, every block count", "why_tests_cant": "All permutations with repetition.", "anchors": ["mtTorrent/Core/Interface.cpp: PieceState::init, addBlock"]}
{"id": "C19", "title": "Requests are never duplicated to a peer and never exceed the limit", "statement": "Block requests issued to a peer are for wanted pieces the peer has, never for a block already received or already requested from it for that piece, and the number in flight stays within the peer's limit.", "quantifier": "every download state and peer bitfield", "why_tests_cant": "State space of partial downloads is unbounded.", "anchors": ["mtTorrent/Core/Downloader.cpp: evaluateNextRequests, getBestNextRequest, sendPieceRequests"]}
{"id": "C20", "title": "Upload queue is served in order within the bandwidth grant", "statement": "Requested blocks are sent at most once, in request order per peer, never exceeding granted bytes, and no request of a live peer is lost.", "quantifier": "every history of requests, grants and disconnects", "why_tests_cant": "Unbounded interleavings of requests with bandwidth grants.", "anchors": ["mtTorrent/Core/Uploader.cpp: pieceRequest, requestBytes, sendRequests, assignBandwidth"]}
{"id": "C21", "title": "Metadata reconstruction", "statement": "Receiving every metadata piece, in any order and with duplicates, reconstructs the sender's metadata; it is finished exactly when no piece is missing; the next requested piece is always a missing one.", "quantifier": "every metadata size and every arrival order", "why_tests_cant": "All permutations with repetition of all sizes.", "anchors": ["mtTorrent/Core/MetadataReconstruction.cpp"]}
{"id": "C22", "title": "Magnet metadata is accepted only if it matches the magnet's hash", "statement": "Metadata obtained from peers replaces the torrent info only if its SHA-1 equals the info hash in the magnet link.", "quantifier": "every metadata content supplied by remote peers", "why_tests_cant": "An adversary chooses the content.", "anchors": ["mtTorrent/Core/Torrent.cpp: downloadMetadata", "mtTorrent/Core/MetadataDownload.cpp", "mtTorrent/Core/MetadataReconstruction.cpp: getRecontructedInfo"]}
{"id": "C23", "title": "Peer wire messages round trip", "statement": "Every message the client sends (have, request, piece, bitfield, port, state, handshake) is decoded by the message parser to the same message, consuming exactly its bytes.", "quantifier": "every field value and every trailing data", "why_tests_cant": "All 32-bit fields and payload lengths.", "anchors": ["mtTorrent/Core/PeerCommunication.cpp: createHandshake, createHave, ...", "mtTorrent/Core/PeerMessage.cpp: PeerMessage::PeerMessage"]}
{"id": "C24", "title": "Message stream decoding is independent of packetisation", "statement": "However the incoming byte stream is cut into chunks, the same sequence of messages is handled, and every chunk is processed in finite time.", "quantifier": "every byte stream and every way to split it", "why_tests_cant": "Exponentially many splits of infinitely many streams.", "anchors": ["mtTorrent/Core/PeerCommunication.cpp: dataReceived, readNextStream", "mtTorrent/Core/PeerMessage.cpp"]}
{"id": "C25", "title": "Choke and interest flags follow the last message", "statement": "The reported peer choking/interested state is determined by the last choke/unchoke, interested/not-interested message received; our own flags by the last change we sent.", "quantifier": "every history of messages", "why_tests_cant": "Histories are unbounded.", "anchors": ["mtTorrent/Core/PeerCommunication.cpp: handleMessage, setInterested, setChoke"]}
{"id": "C26", "title": "RC4 stream encryption", "statement": "Decrypting what the other side encrypted with the same key returns the plaintext, for any split of the stream into writes and reads and after any number of skipped bytes.", "quantifier": "every key, plaintext and segmentation", "why_tests_cant": "All keys, lengths and segmentations.", "anchors": ["mtTorrent/utils/RC4.cpp: RC4::init, encode, decode, skip"]}
{"id": "C27", "title": "Big number modular exponentiation is correct", "statement": "The modular exponentiation used for key exchange returns base^exponent mod modulus for all operands of equal length and non-zero modulus.", "quantifier": "every operand of every digit length", "why_tests_cant": "Knuth division has rare correction branches (probability about 2/2^64) random tests never take.", "anchors": ["mtTorrent/utils/BigNumber.cpp: Powm, Mulm, dbi_mul, Square_h, Mul_h, dbi_div"]}
{"id": "C28", "title": "Key exchange agreement", "statement": "Both ends of the encrypted handshake derive the same shared secret from each other's public keys.", "quantifier": "every pair of private keys", "why_tests_cant": "All 768-bit keys.", "anchors": ["mtTorrent/utils/DiffieHellman.cpp"]}
{"id": "C29", "title": "Encrypted incoming connections reach the right torrent", "statement": "When a peer opens an encrypted connection for a torrent we serve, the handshake identifies exactly that torrent.", "quantifier": "every set of torrents and every shared secret", "why_tests_cant": "Depends on hash values byte by byte.", "anchors": ["mtTorrent/Core/ProtocolEncryption.cpp: findByPe3Hash, readPe3Handshake"]}
{"id": "C30", "title": "uTP delivers the byte stream in order, exactly once", "statement": "Whatever the network does to the packets (loss, duplication, reordering), the bytes handed to the application are a prefix of the bytes sent, in order, without gaps or repeats.", "quantifier": "every sent stream and every schedule of packet arrivals", "why_tests_cant": "Schedules are unbounded; errors show only at particular interleavings or sequence wrap-around.", "anchors": ["mtTorrent/Core/Utp/UtpStream.cpp: handleDataMessage, storeReceivedData, flushReceivedData, updateState, idHigherThan, idLowerThan"]}
{"id": "C31", "title": "uTP keeps unacknowledged data", "statement": "Data written to the stream stays available for retransmission until the peer acknowledges it, packets cover the written data contiguously, and the in-flight byte count equals the size of the stored packets.", "quantifier": "every history of writes, acks, selective acks and timeouts", "why_tests_cant": "Unbounded histories.", "anchors": ["mtTorrent/Core/Utp/UtpStream.cpp: write, sendData, flushSendData, ackSentDataBuffer, ackSentPacket"]}
{"id": "C32", "title": "uTP header parsing stays inside the datagram", "statement": "For every datagram the computed header size lies within the datagram, and all extension bytes used later lie within it.", "quantifier": "every datagram", "why_tests_cant": "Adversarial extension chains.", "anchors": ["mtTorrent/Core/Utp/UtpStream.cpp: parseHeaderSize", "mtTorrent/Core/Utp/UtpManager.cpp: onUdpPacket"]}
{"id": "C33", "title": "DHT routing table invariants", "statement": "Each bucket holds at most eight live and eight spare nodes, no node id appears twice, every node is in the bucket of its distance and never has our own invalid id.", "quantifier": "every history of node responses and timeouts", "why_tests_cant": "Unbounded histories.", "anchors": ["mtTorrent/Core/Dht/Table.cpp: nodeResponded, nodeNotResponded"]}
{"id": "C34", "title": "DHT distance is a metric order", "statement": "Comparing node ids by closeness to a target is a strict order consistent with the XOR distance.", "quantifier": "all 160-bit ids", "why_tests_cant": "2^480 triples.", "anchors": ["mtTorrent/Core/Dht/Node.cpp: NodeId::distance, closerThan, closerToNodeThan, length"]}
{"id": "C35", "title": "DHT announce tokens are bound to the requester", "statement": "An announce is accepted only with a token issued to the same address within the last two rotations.", "quantifier": "every address, token and rotation history", "why_tests_cant": "Adversarial tokens and addresses.", "anchors": ["mtTorrent/Core/Dht/Responder.cpp: getAnnounceToken, isValidToken, refresh"]}
{"id": "C36", "title": "DHT stored peers", "statement": "The peers returned for an info hash are exactly those announced within the expiry period, without duplicates, up to the cap.", "quantifier": "every history of announces, refreshes and queries", "why_tests_cant": "Unbounded histories.", "anchors": ["mtTorrent/Core/Dht/Responder.cpp: announcedPeer, refreshStoredValues, writeValues"]}
{"id": "C37", "title": "DHT lookup keeps the closest candidates", "statement": "During a lookup the result list stays bounded, has no duplicates, contains no already-queried node, and never drops a node closer to the target than one it keeps.", "quantifier": "every sequence of responses", "why_tests_cant": "Unbounded, adversarial responses.", "anchors": ["mtTorrent/Core/Dht/Query.cpp: mergeClosestNodes, getShortestDistance"]}
{"id": "C38", "title": "DHT routing table survives restart", "statement": "Saving and loading the routing table restores the same nodes.", "quantifier": "every table content", "why_tests_cant": "Binary node ids in a text format: failing byte patterns are rare.", "anchors": ["mtTorrent/Core/Dht/Table.cpp: save, load"]}
{"id": "C39", "title": "Bandwidth limit", "statement": "Over any period the bytes granted on a limited channel do not exceed the limit times the period plus the permitted burst; a request never gets more than it asked for; queued-byte accounting is exact.", "quantifier": "every history of requests, ticks and limits", "why_tests_cant": "Unbounded histories.", "anchors": ["mtTorrent/utils/Bandwidth.cpp"]}
{"id": "C40", "title": "Peer connection limit and bookkeeping", "statement": "Automatic connections never push the number of active connections over the limit; each active connection refers to the right known peer after any insertions; peers marked unwanted are never reconnected.", "quantifier": "every history of peer discovery, connects and disconnects", "why_tests_cant": "Unbounded histories; index shifting on insertion.", "anchors": ["mtTorrent/Core/Peers.cpp: connectNext, updateKnownPeers, add, remove, disconnect"]}
{"id": "C41", "title": "Tracker list has no duplicates", "statement": "Adding trackers in any order yields at most one entry per host and port, and no valid tracker is lost.", "quantifier": "every list of tracker urls", "why_tests_cant": "All orders and combinations.", "anchors": ["mtTorrent/Core/TrackerManager.cpp: addTracker, findTrackerInfo"]}
{"id": "C42", "title": "UDP tracker replies are matched to requests", "statement": "A datagram advances the tracker state only if it carries the action and transaction id of the outstanding request; the peers reported are exactly those encoded; no byte outside the datagram is read.", "quantifier": "every datagram and tracker state", "why_tests_cant": "Adversarial datagrams.", "anchors": ["mtTorrent/Core/UdpTrackerComm.cpp"]}
{"id": "C43", "title": "HTTP header reading terminates and is exact", "statement": "Reading any received prefix of an HTTP reply terminates, and for a complete header reports its parameters, payload position and size.", "quantifier": "every byte string", "why_tests_cant": "All prefixes of all replies.", "anchors": ["mtTorrent/utils/HttpHeader.cpp: HttpHeaderInfo::read, readChunkedData"]}
{"id": "C44", "title": "Torrent state survives restart", "statement": "Saving the torrent state and loading it returns the same pieces, counters, selection, unfinished pieces and paths.", "quantifier": "every torrent state", "why_tests_cant": "All field values, e.g. sizes over 4 GiB.", "anchors": ["mtTorrent/Core/State.cpp: TorrentState::saveState, loadState"]}
{"id": "C45", "title": "Configuration survives restart", "statement": "Saving the configuration and loading it returns the same values.", "quantifier": "every configuration", "why_tests_cant": "All field values and directory names.", "anchors": ["mtTorrent/Core/Configuration.cpp: load, save", "mtTorrent/utils/Xml.cpp"]}
{"id": "C46", "title": "Peer exchange messages describe the change", "statement": "A PEX message sent after any history lists exactly the peers connected and disconnected since the previous one (up to the cap) and is a well-formed message.", "quantifier": "every history of connection sets", "why_tests_cant": "Histories where an update without dropped peers follows one with.", "anchors": ["mtTorrent/Core/PexExtension.cpp"]}
{"id": "C47", "title": "One torrent per info hash", "statement": "After any sequence of adding files and magnets and removing torrents there is at most one torrent per info hash; adding a duplicate merges into the existing one.", "quantifier": "every operation history", "why_tests_cant": "Unbounded histories.", "anchors": ["mtTorrent/Core/Core.cpp: addFile, addMagnet, removeTorrent, getTorrent"]}
{"id": "C48", "title": "Torrent lifecycle", "statement": "Starting and stopping in any order keeps the reported state consistent: after a manual stop the torrent is stopped and will stay stopped after restart; a torrent running at shutdown restarts.", "quantifier": "every sequence of start/stop/deinit/reload", "why_tests_cant": "Unbounded histories with crash points.", "anchors": ["mtTorrent/Core/Torrent.cpp: start, stop, save, fromSavedState, getState"]}
{"id": "C49", "title": "Country lookup", "statement": "Looking up an IPv4 address returns the country of the range containing it; saving and loading the table preserves all answers.", "quantifier": "every table and address", "why_tests_cant": "2^32 addresses times all tables.", "anchors": ["mtTorrent/utils/FastIpToCountry.cpp"]}
{"id": "C50", "title": "Alerts are delivered once, in order, and only if registered", "statement": "popAlerts returns exactly the alerts of registered kinds raised since the previous call, in order.", "quantifier": "every history of alerts, registrations and pops", "why_tests_cant": "Unbounded histories.", "anchors": ["mtTorrent/Core/AlertsManager.cpp"]}
{"id": "C51", "title": "UDP request dispatch", "statement": "Each outstanding UDP request gets exactly one final outcome: one accepted response or one timeout/close notification, after at most one retry; one datagram completes at most one request.", "quantifier": "every interleaving of datagrams, timeouts and cancellations", "why_tests_cant": "Unbounded schedules.", "anchors": ["mtTorrent/utils/UdpAsyncComm.cpp"]}
{"id": "C52", "title": "Network addresses round trip and compare consistently", "statement": "Reading back the compact form of an address gives the same address; address comparison is a total order with symmetric equality.", "quantifier": "every IPv4/IPv6 address and port", "why_tests_cant": "All address pairs.", "anchors": ["mtTorrent/utils/Network.cpp: Addr"]}
{"id": "C54", "title": "Metadata messages stay inside the metadata buffer", "statement": "Handling any metadata message from a peer writes only inside the metadata buffer and decides only on values the message contained.", "quantifier": "every message a peer can send, in every reconstruction state", "why_tests_cant": "The message content, piece index and declared sizes are chosen by the peer.", "anchors": ["mtTorrent/Core/MetadataExtension.cpp: UtMetadata::Load", "mtTorrent/Core/MetadataReconstruction.cpp: addPiece", "mtTorrent/Core/MetadataDownload.cpp: extendedMessageReceived"]}
{"id": "C55", "title": "The text form of an IPv4 address is right", "statement": "The text shown for an IPv4 address is its dotted decimal form followed by the port, so different addresses have different texts.", "quantifier": "every IPv4 address and port", "why_tests_cant": "2^48 inputs; wrong digits appear only for some octets.", "anchors": ["mtTorrent/utils/Network.cpp: Addr::toString, toIpv4String, iToString"]}
{"id": "C56", "title": "A found torrent is announced to the nodes that gave a token", "statement": "After a get_peers lookup the client announces, to each node that answered with a token, the info hash it looked up; the node then stores the client's address with the announced port under that hash and gives it to the next who asks.", "quantifier": "every node, state of the receiver, hash, port and token it issued", "why_tests_cant": "Needs two nodes; an announce of a wrong hash is answered like a right one.", "anchors": ["mtTorrent/Core/Dht/Query.cpp: onResponse", "mtTorrent/Core/Dht/Communication.cpp: announceTokenReceived", "mtTorrent/Core/Dht/Query.cpp: AnnouncePeer::createAnnouncePeerRequest"]}
{"id": "C57", "title": "DHT responses are read safely and exactly", "statement": "Reading a response never leaves the message, and the transaction, id, token, nodes, peers and error found are those the message says.", "quantifier": "every packet and every content of the receive buffer behind it", "why_tests_cant": "Packets are adversarial; reads beyond the message are silent.", "anchors": ["mtTorrent/Core/Dht/Query.cpp: parseGetPeersResponse"]}
{"id": "C58", "title": "DHT queries are answered as BEP 5 says", "statement": "A query with all its parts gets a well-formed reply that repeats its transaction id and carries our id and, by kind, the closest nodes of the wanted families, the stored peers of the sender's family and a token; an announce is stored under the port given; every other message is ignored, and no packet breaks the node.", "quantifier": "every packet, sender, routing table and set of stored peers", "why_tests_cant": "Packets are adversarial; the failing ones need crafted lengths.", "anchors": ["mtTorrent/Core/Dht/Responder.cpp: handlePacket, writeNodes, writeValues"]}
{"id": "C59", "title": "Closest nodes from the routing table", "statement": "The nodes given for a target are active nodes of the table, at most eight per address family, without repetition, and no active node of the table that is left out is closer to the target than one given of the same family.", "quantifier": "every routing table and target id", "why_tests_cant": "Which buckets are visited depends on every distance; the skipped ones are those nearest to the own id and rarely filled.", "anchors": ["mtTorrent/Core/Dht/Table.cpp: getClosestNodes"]}
{"id": "C60", "title": "The client understands its own DHT answers", "statement": "A get_peers query of this client, answered by another instance of it, is read as an answer with the same transaction, the id and token of the other, the closest nodes of its table and its stored peers.", "quantifier": "every routing table, set of stored peers, hash and sender", "why_tests_cant": "Needs two nodes and tables with nodes of both address families.", "anchors": ["mtTorrent/Core/Dht/Query.cpp: createGetPeersRequest, parseGetPeersResponse", "mtTorrent/Core/Dht/Responder.cpp: handlePacket"]}
{"id": "C61", "title": "HTTP announce replies are read exactly", "statement": "For a complete reply of an HTTP tracker that says it succeeded, the response has exactly the interval, counts and compact peers that the reply encodes; a reply not yet complete is left in the buffer until it is; no byte outside the received data is used.", "quantifier": "every reply, split at every point, every content of the memory behind it", "why_tests_cant": "All headers, dictionaries, peer lists and split points.", "anchors": ["mtTorrent/Core/HttpTrackerComm.cpp: readAnnounceResponse", "mtTorrent/utils/HttpHeader.cpp: HttpHeaderInfo::read"]}
{"id": "C62", "title": "uTP delivers what has arrived", "statement": "When every part of the stream up to some point has arrived, all of it is handed to the application or held ready for it, however often packets were repeated or reordered.", "quantifier": "every sent stream and every schedule of packet arrivals", "why_tests_cant": "Fails only where 16-bit numbers wrap or after 65536 repeated packets.", "anchors": ["mtTorrent/Core/Utp/UtpStream.cpp: flushReceivedData, storeReceivedData, createDataBuffer"]}
{"id": "C63", "title": "uTP streams stay inside their buffers", "statement": "Whatever packets a peer sends on a uTP stream, with any numbers, acks, selective acks and data, in any order and mixed with writes, timeouts and closing, the stream reads and writes only inside its own buffers and lists, and no timeout computation overflows.", "quantifier": "every stream opened by either side, every sequence of packets and every interleaving with writes, timer calls and close, as long as nothing is written before the peer answers and a posted close runs before the next timer call", "why_tests_cant": "The packets are chosen by the peer; buffer indices, lists of stored packets and bit masks depend on the whole history.", "anchors": ["mtTorrent/Core/Utp/UtpStream.cpp: prepareStateHeader, flushReceivedData, ackSentPacket, resendPackets, packetTimeout"]}
{"id": "C64", "title": "uTP acknowledges only what has arrived", "statement": "The ack of a state packet covers only parts that have arrived and are delivered, its selective ack names only data packets that have arrived, and every arrived part near the ack is covered or named.", "quantifier": "every stream, every history of packets, and every state packet sent after it", "why_tests_cant": "A wrongly acknowledged packet is dropped by the sender for good; which bits are set depends on the set of stored packets and on 16-bit arithmetic.", "anchors": ["mtTorrent/Core/Utp/UtpStream.cpp: sendState, prepareStateHeader, prepareSelectiveAckData"]}
{"id": "C65", "title": "Addresses are taken apart exactly", "statement": "An address made of protocol, host, optional port and path is parsed back into exactly these parts.", "quantifier": "every protocol, host, port and path that can be told apart in the text", "why_tests_cant": "All lengths and contents of the four parts, with and without port and path.", "anchors": ["mtTorrent/utils/Uri.cpp: Uri::Parse"]}
{"id": "C66", "title": "Running trackers are asked, one request at a time, until stopped", "statement": "While a torrent runs, each tracker of a supported protocol has exactly one announce, answer, restart or timer under way; after a stop nothing is under way, no timer runs and no tracker object is used that is gone.", "quantifier": "every history of adding, starting, stopping, answers, failures and timers, with posted tasks running at any later time and in any order", "why_tests_cant": "The order of answers, failures, timers and posted tasks is up to scheduling; the list moves in memory while timers point into it.", "anchors": ["mtTorrent/Core/TrackerManager.cpp: start, stop, onAnnounce, onTrackerFail, stopAll", "mtTorrent/utils/ScheduledTimer.cpp"]}
{"id": "C68", "title": "Serving a request touches only the block's buffer and sends what is stored", "statement": "Whatever piece, offset and length a peer asks for, and whatever files exist, serving the request touches no memory outside the buffer made for it; the bytes sent are those the files hold at the requested place, or nothing is sent.", "quantifier": "every torrent layout, every history of requests of peers, every content of the files", "why_tests_cant": "The numbers come from peers, and the layouts in which it fails are rare.", "anchors": ["mtTorrent/Core/Uploader.cpp: sendRequests", "mtTorrent/Core/Storage.cpp: loadPieceBlock, getFileBlockPosition"]}
{"id": "C70", "title": "Peer exchange messages are read exactly and safely", "statement": "Whatever bytes a peer sends as a PEX message, reading touches only the message; of a bencoded dictionary it yields exactly the whole addresses listed and the flags when there are as many; anything else is ignored.", "quantifier": "every content of a PEX message", "why_tests_cant": "The sizes written inside a message and its lengths combine without bound.", "anchors": ["mtTorrent/Core/PexExtension.cpp", "mtTorrent/utils/BencodeParser.cpp"]}
{"id": "C73", "title": "Peers are not dialled again at once", "statement": "A peer that was dialled, or whose connection was lost, is not dialled again automatically within 30 seconds.", "quantifier": "every history of peers found, connections and their ends, starts and stops", "why_tests_cant": "Unbounded histories; the same address may come from several sources.", "anchors": ["mtTorrent/Core/Peers.cpp: connectNext, updateKnownPeers, removePeer, add"]}
{"id": "C75", "title": "XML that was written is read back", "statement": "Reading an XML text produced by the writer yields the elements that were written, found by name and order, each with its value, and looking at them never reads outside the parsed elements.", "quantifier": "every tree of elements, every name, attribute and value", "why_tests_cant": "Trees, values and offsets are unbounded; the out-of-range read depends on where an empty element stands.", "anchors": ["mtTorrent/utils/Xml.cpp: Document::parse, Element::value, Element::firstNode, XmlWriter::Element", "mtTorrent/Core/Configuration.cpp: load, save", "mtTorrent/utils/UpnpDiscovery.cpp: parseDevicesNode"]}
{"id": "C76", "title": "The hash is SHA-1", "statement": "The hash that pieces, torrents, metadata and encryption keys are made of is SHA-1 as published, for every message and however it is handed over in parts.", "quantifier": "every message, every partition into parts", "why_tests_cant": "The function is unrolled by hand; block boundaries and padding depend on the length of the message.", "anchors": ["mtTorrent/utils/SHA.cpp: _SHA1"]}
{"id": "C77", "title": "Both ends of an encrypted connection understand each other", "statement": "After the encrypted handshake each end reads exactly what the other wrote, in both directions, however the bytes arrive in pieces.", "quantifier": "every pair of keys, every padding, every initial message, every partition of the bytes into pieces", "why_tests_cant": "The ends stay in step only if both use exactly as many bytes of the key streams; that depends on how the bytes arrive.", "anchors": ["mtTorrent/Core/ProtocolEncryption.cpp: readPe3Handshake, readPe4Handshake", "mtTorrent/Core/PeerStream.cpp: dataReceivedPeHandshake", "mtTorrent/Core/IncomingPeersListener.cpp: startPeer"]}
{"id": "C71", "title": "Hole punching introduces two peers to each other", "statement": "A peer that asks to be introduced to another one is answered: if the other is connected and supports it both are told, in a message they understand, to connect to each other's address and nobody else is; otherwise the one that asked gets an error. No message whatsoever makes the program touch memory that is not its own.", "quantifier": "every set of connections, every message from every peer, both address families", "why_tests_cant": "Needs three peers behind address translators; the harmful messages are ones no well-behaved client sends.", "anchors": ["mtTorrent/Core/HolepunchExtension.cpp: Load, send", "mtTorrent/Core/Peers.cpp: handleHolepunchMessage, evaluatePossibleHolepunch"]}
{"id": "C72", "title": "Extended handshakes are understood", "statement": "Of every extended handshake the numbers of the extensions, the client, the size of the metadata and the own address are learned as BEP 10 defines them; the handshake the client sends is one that tells all this to another instance of it; messages are sent and taken under the numbers agreed on.", "quantifier": "every handshake message, every previous state of the extensions", "why_tests_cant": "Other clients send other keys, orders and types; tests use the handshakes of a few clients.", "anchors": ["mtTorrent/Core/PeerCommunication.cpp: createExtendedHandshake, handleExtendedMessage", "mtTorrent/Core/ExtensionProtocol.cpp: init"]}
{"id": "C74", "title": "A saved torrent file says what was saved", "statement": "When the client writes a torrent file - after trackers were added, or when the metadata of a link is complete - then reading that file gives exactly the torrent that was written: its id, files, pieces, trackers, private flag, creator and date.", "quantifier": "every torrent file or metadata the client has read, every list of trackers added", "why_tests_cant": "Unlimited torrents with keys of other programs; a torrent whose saved file differs is noticed only at the next start.", "anchors": ["mtTorrent/Core/Api/InterfaceImpl.cpp: TorrentFileMetadata::createTorrentFileData", "mtTorrent/Core/Peers.cpp: importTrackers", "mtTorrent/Core/Torrent.cpp: downloadMetadata", "mtTorrent/utils/BencodeWriter.cpp"]}
{"id": "C78", "title": "A torrent file is read as it was written", "statement": "Of every torrent file the trackers, the name, the piece hashes, path and length of every file, the private flag, the creator and the date are read as the file has them, whatever other keys there are and in whatever order, and the torrent id is the hash of its info dictionary; the same for an info dictionary alone.", "quantifier": "every torrent file, single-file or multi-file, with every additional key", "why_tests_cant": "Files are written by many programs with different keys and orders; tests have a few of them and none with ten thousand files.", "anchors": ["mtTorrent/utils/TorrentFileParser.cpp: parse, parseTorrentInfo, loadTorrentFileInfo", "mtTorrent/utils/BencodeParser.cpp"]}
{"id": "C79", "title": "A router that announces itself is used as it describes itself", "statement": "When a router answers the search, its description is fetched from the address, port and path it named, and requests to forward ports go to the control URL its description has for the WANIPConnection service, with the port, kind and client they are about; no announcement and no description makes the program end or read memory that is not its own.", "quantifier": "every answer to the search, every description, every request", "why_tests_cant": "Routers differ in every detail of these texts and anything on the local network can answer the search; tests meet the one router at hand.", "anchors": ["mtTorrent/utils/UpnpDiscovery.cpp: UrlParser, start, queryNext, onRootXmlReceive", "mtTorrent/utils/UpnpPortMapping.cpp: mapPort, unmapPort, createUpnpHttpHeader"]}
{"id": "C80", "title": "Routers forward the ports that are wished and no others", "statement": "Only ports that are wished and not forwarded are asked for, and only ports that are forwarded and no longer wished are taken back; once the wishes stay and the requests are answered, every router found forwards exactly the wished ports, and no more requests are sent.", "quantifier": "every order in which ports are asked for and taken back, routers are found, and requests are granted, refused or end", "why_tests_cant": "The order of answers and of connections that end is chosen by routers; tests have one router that answers at once.", "anchors": ["mtTorrent/utils/UpnpPortMapping.cpp: mapActiveAdapters, unmapMappedAdapters, unmapAllMappedAdapters, refreshMapping"]}
{"id": "C81", "title": "A TCP connection delivers what is sent, in order", "statement": "What a connection shows its receiver is, after what the receiver has used, exactly what arrived, in order and each byte until it is used; a connection always waits for data or bandwidth; messages are sent whole, one after another, in the order they were written, those written before it is connected too; bandwidth that was granted stays usable, every address of a host is tried, and at no time does receiving end the program.", "quantifier": "every stream of bytes, every way it is cut into pieces, every use the receiver makes of it, every order of connecting, writing, receiving, granting and breaking, every time", "why_tests_cant": "The network decides how the bytes are cut and when; the arithmetic of the clock fails in one second every 17 years.", "anchors": ["mtTorrent/utils/TcpAsyncStream.cpp: handle_receive, readAvailableData, startReceive, requestBandwidth, appendData, do_write, handle_write, setAsConnected, handle_resolver_connect", "mtTorrent/utils/TcpAsyncStream.h: ReadBuffer"]}
{"id": "C82", "title": "What peers send arrives decrypted and in order", "statement": "On a connection to or from a peer, once its handshake is over, the program gets exactly the bytes that arrived behind the handshake, decrypted if the handshake agreed on it, in order, each until it is used; what it writes goes out in order, encrypted from where the handshake left off. Until the handshake is over it gets nothing.", "quantifier": "every handshake, every way the bytes are cut into pieces (also in the middle of and right behind the handshake), every amount the program uses of them, every interleaving with writes", "why_tests_cant": "Data is decrypted in place and in part used, so errors depend on where the network cuts the bytes and what was left over before.", "anchors": ["mtTorrent/Core/PeerStream.cpp: dataReceived, dataReceivedPeHandshake, write, startProtocolEncryption, addEncryption"]}
{"id": "C83", "title": "Peers are reached in the ways the settings allow", "statement": "A peer that can be reached over TCP or uTP, and answers plain or encrypted handshakes, is reached if the settings allow such a way, with at most three connections; nothing that was written is lost by trying another way; if encryption is required nothing the program writes goes out in plain text; a peer that is gone is given up.", "quantifier": "all settings, all peers, all messages, all failures", "why_tests_cant": "There are some hundred combinations of settings and peers, and peers may go away between two tries.", "anchors": ["mtTorrent/Core/PeerStream.cpp: open, write, connectionOpened, connectionClosed, retryEncryptionMethod, sendEncryptionMethodRetry, reconnectStream"]}
{"id": "C84", "title": "Peers that connect are handed to the torrent they name", "statement": "A peer that connects, plain or encrypted, and names a torrent that runs is handed to it with everything it sent; one that names another torrent, or fails the handshake, is disconnected; peers that connect without encryption are not served if it is required.", "quantifier": "every handshake, every way it is cut into pieces, every set of torrents", "why_tests_cant": "Handshakes arrive in one piece in tests; on the network they need not.", "anchors": ["mtTorrent/Core/IncomingPeersListener.cpp: readStreamData, startPeer, getPeHandshake", "mtTorrent/Core/PeerMessage.cpp: startsAsHandshake"]}
{"id": "C85", "title": "Datagrams are handed on as they came", "statement": "Every datagram that arrives at the program's UDP port is handed on exactly once, whole, in order, and with the address of its sender.", "quantifier": "every sequence of datagrams from any senders, of any lengths, however many of them are in the socket at once", "why_tests_cant": "Tests talk to one peer at a time; the error needs datagrams of two senders in the socket at once.", "anchors": ["mtTorrent/utils/UdpAsyncReceiver.cpp: handle_receive, readSocket, flushPackets"]}
{"id": "C86", "title": "Messages over UDP are sent and answers arrive", "statement": "Each message written to a request's socket is sent to the address of the request, in order, once and again for each retry, and nothing else is sent; each answer that arrives is handed on, in order; a closed request sends nothing.", "quantifier": "every history of writes, retries, lookups, connections, failures and closing, every sequence of answers", "why_tests_cant": "What is sent depends on which of several asynchronous steps are over when the next message is written.", "anchors": ["mtTorrent/utils/UdpAsyncWriter.cpp: write, do_write, do_rewrite, do_close, send_message, handle_resolve, handle_connect, handle_receive, readSocket"]}
{"id": "C87", "title": "uTP datagrams reach the connection they belong to", "statement": "Of the datagrams that arrive from an address, each uTP connection with that address gets exactly those with its number, in order; a request for a connection opens one, once; what is not uTP is left to others, in order.", "quantifier": "every set of connections, every batch of datagrams", "why_tests_cant": "A connection is remembered from one datagram to the next, and the order of the datagrams of several connections is up to the network.", "anchors": ["mtTorrent/Core/Utp/UtpManager.cpp: onUdpPacket, onNewConnection, connectStream"]}
{"id": "C69", "title": "Messages of peers cannot make the downloader leave its tables", "statement": "Whatever peers send and in whatever order, handling it never reads or writes outside the tables of our pieces, of the peer's pieces and of the blocks asked for.", "quantifier": "every torrent, every history of starting, stopping, selecting files, peers connecting, leaving and sending `have`, bitfields, `choke`, `unchoke` and blocks", "why_tests_cant": "The numbers come from peers; well behaved ones never send those that do harm, and reading a little past a table usually goes unnoticed.", "anchors": ["mtTorrent/Core/PeerCommunication.cpp: handleMessage", "mtTorrent/Core/Downloader.cpp: messageReceived, isMissingPiece, evaluateNextRequests, getBestNextPiece, pieceBlockReceived, sendPieceRequests", "mtTorrent/Core/FileTransfer.cpp: refreshSelection", "mtTorrent/utils/PiecesProgress.cpp: addPiece, hasPiece, fromBitfieldString"]}
{"id": "C53", "title": "Checking the files finds exactly the pieces that are there", "statement": "After checking the files of a torrent, the progress says of every piece that was to be checked whether its bytes, taken from the files at the places the metadata gives them, have the hash of the metadata, and of the other pieces what it said before; the check stays inside its buffer and tables.", "quantifier": "every torrent, all contents of its files, all pieces asked for, every order in which the workers find pieces", "why_tests_cant": "A piece can begin and end anywhere and span any number of files, some of them empty, missing or of another size; each worker looks at every fourth piece and skips the others.", "anchors": ["mtTorrent/Core/Storage.cpp: checkStoredPieces", "mtTorrent/Core/Files.cpp: checkFiles, start", "mtTorrent/utils/PiecesProgress.cpp: removeReceived, addPiece"]}
{"id": "C67", "title": "Requests to HTTP trackers say what they should", "statement": "The announce request sent to an HTTP or HTTPS tracker, read by a server, is a GET of the path of the tracker with the fields info_hash and peer_id that mean the hash of the torrent and our peer id byte for byte, port, uploaded, downloaded, left, numwant and key in decimal, event, and the field about encryption that the settings ask for; it names the host and ends with an empty line.", "quantifier": "For all hashes, peer ids, numbers, settings, and tracker URLs.", "why_tests_cant": "The bytes of hashes that need escaping and the URLs of trackers are unlimited; a test sees one torrent and one tracker.", "anchors": ["mtTorrent/Core/HttpTrackerComm.cpp:117-143", "mtTorrent/utils/UrlEncoding.cpp", "mtTorrent/utils/Uri.cpp"]}
{"id": "C88", "title": "Every request to an HTTP tracker is answered or fails once", "statement": "Each time a tracker is asked over HTTP, its owner is told either the answer or a failure, exactly once: the answer if the connection is made and the whole reply arrives, however it is cut into parts; otherwise a failure. This holds for every request, not only the first.", "quantifier": "For all histories of requests, connections, closings and arriving bytes, all replies and all ways to cut them.", "why_tests_cant": "Orders of connecting, closing and arriving are unlimited and depend on servers; what fails is the second request hours later.", "anchors": ["mtTorrent/Core/HttpTrackerComm.cpp:24-115", "mtTorrent/Core/HttpTrackerComm.cpp:195-210", "mtTorrent/utils/TcpAsyncStream.cpp:293-420"]}
{"id": "C89", "title": "Every request to an HTTPS tracker is answered or fails once", "statement": "Each time a tracker is asked over HTTPS, at the port its URL names, its owner is told either the answer or a failure, exactly once: the answer if the connection is made, the whole request is taken and the whole reply arrives, however it is cut into blocks; otherwise a failure. This holds for every request, not only the first.", "quantifier": "For all histories of requests and results of resolving, connecting, writing and reading, all replies and all ways to cut them.", "why_tests_cant": "The sizes of the blocks a socket delivers depend on the network and cannot be listed; most servers in tests answer in one block.", "anchors": ["mtTorrent/Core/HttpsTrackerComm.cpp:31-108", "mtTorrent/utils/SslAsyncStream.cpp:26-183"]}
{"id": "C90", "title": "A torrent writes only below its location", "statement": "Every file of a torrent lies below the location chosen for the torrent, at the path the torrent file names, and two files of a torrent lie at different places.", "quantifier": "For all torrent files, whoever made them, and all locations.", "why_tests_cant": "Torrent files come from strangers; the names that lead out of the location are not those a tester thinks of.", "anchors": ["mtTorrent/Core/Storage.cpp:576-597", "mtTorrent/Core/Storage.cpp:30-37", "mtTorrent/utils/TorrentFileParser.cpp:180-231"]}
{"id": "C91", "title": "Moving a torrent moves its files", "statement": "When the location of a torrent is changed with its files and the answer is success, every file of it that was there is at the new location with the same contents and not at the old one, and nothing else changes; when the answer is an error nothing changes. Changing the location without the files leaves all files as they are. A torrent can be moved to any folder that has nothing by its name.", "quantifier": "For all file systems, torrents, locations old and new.", "why_tests_cant": "What lies on disks is unlimited; the torrents and folders for which it fails look as ordinary as the others.", "anchors": ["mtTorrent/Core/Storage.cpp:39-88", "mtTorrent/Core/Storage.cpp:566-574", "mtTorrent/Core/Storage.cpp:599-611"]}
{"id": "C92", "title": "Deleting a torrent's files deletes these and nothing else", "statement": "After a torrent was removed with its files none of its files is left, nor the folder made for them, and everything else on the disk is as before.", "quantifier": "For all file systems, torrents and locations.", "why_tests_cant": "A test checks that files are gone; that nothing else is gone is about all other files on the disk.", "anchors": ["mtTorrent/Core/Storage.cpp:225-239", "mtTorrent/Core/Core.cpp:247-260"]}
{"id": "C93", "title": "The room a download needs is told rightly", "statement": "Checking a location tells as required room the sizes of the selected files, as missing room what the files on its disk are shorter than that, the room available on the disk of the location, and that there is not enough exactly if less is available than missing; the allocated sizes are those on disk.", "quantifier": "For all file systems with any disks, torrents, selections and locations.", "why_tests_cant": "Tests run on one disk with room; the answer depends on every file on the disk and on which disk is where.", "anchors": ["mtTorrent/Core/Storage.cpp:613-665", "mtTorrent/Core/Storage.cpp:207-223"]}
{"id": "C94", "title": "A selection gets room for exactly the data it keeps", "statement": "For a selection of files, and for one file, the files for which room is checked and allocated are those that keep data, with the number of bytes kept: all bytes of selected files, and of the others those in pieces that hold bytes of selected files.", "quantifier": "For all piece sizes, lists of file sizes and selections.", "why_tests_cant": "How files begin and end in pieces has unlimited variants, and an error shows only as a disk that runs full or a file that grows in use.", "anchors": ["mtTorrent/Core/Interface.cpp:4-98"]}
{"id": "C95", "title": "Every connected peer is told of every piece", "statement": "While the transfer runs, each peer whose handshake is done learns of every piece we have: of those there at the handshake by the bitfield, of those that pass their check later by a have message at the next tick of the timer. None is left out, whatever the order of connections, blocks, checks, starts and stops.", "quantifier": "For all torrents of at most 2^24 pieces and all histories of events of connections, messages, checks, timers, selections, starts and stops.", "why_tests_cant": "A piece that is missed for one peer shows only as an upload that never happens, and depends on how checks and handshakes interleave.", "anchors": ["mtTorrent/Core/FileTransfer.cpp:57-67", "mtTorrent/Core/FileTransfer.cpp:243-251", "mtTorrent/Core/Downloader.cpp:192-222", "mtTorrent/Core/Downloader.cpp: popFreshPieces"]}
{"id": "C96", "title": "Only spare connections are closed when there are too many", "statement": "When a torrent has more connections than allowed, some are closed, but no more than needed. A connection is closed only if it is at least ten seconds old. One on which data came in the last twenty seconds is closed only if no idle one can go, alone, and only if none is slower. Of the idle peers that want data from us the five best stay. Of the other idle ones those go that gave least.", "quantifier": "For all lists of connections with any ages, activity, speeds and totals, all limits, all times from 20 to 2^64, and all correct sorts.", "why_tests_cant": "Which connection is closed depends on the relative order of many peers' ages, speeds and totals; tests with a few peers do not reach the combinations of protected uploads and equal speeds.", "anchors": ["mtTorrent/Core/FileTransfer.cpp:152-241", "mtTorrent/Core/FileTransfer.cpp: evalCurrentPeers"]}
{"id": "C97", "title": "Metadata is given to peers as they ask for it", "statement": "A peer that asks for a piece of the metadata gets exactly the bytes of this piece with its number and the total size; one that asks for a piece that does not exist gets no data. So a second program that asks for all pieces, in any order and repeatedly, ends up with the same metadata and the same id.", "quantifier": "For all metadata of less than 2 GiB, all requests a peer can send and all orders of requests.", "why_tests_cant": "The number in a request is chosen by the peer, 32 bits of it, and the order of requests is free.", "anchors": ["mtTorrent/Core/FileTransfer.cpp:120-141", "mtTorrent/Core/MetadataExtension.cpp:58-97", "mtTorrent/Core/MetadataExtension.cpp: sendPieceRequest"]}
{"id": "C98", "title": "The download of metadata gets done", "statement": "A magnet link's metadata download finishes if some peer has the metadata: while it is not finished every peer that is connected has a request to answer, lost requests are repeated by the timer after five seconds, and after a bounded number of answers it is finished with the right bytes. Peers that cannot give metadata are let go.", "quantifier": "For all metadata of less than 4 GiB, any number of peers that have it, and all histories of handshakes, answers in any order, lost messages, timer events and disconnections.", "why_tests_cant": "Whether a request is repeated or a peer left idle depends on how answers of several peers, losses and disconnections interleave.", "anchors": ["mtTorrent/Core/MetadataDownload.cpp:26-189", "mtTorrent/Core/MetadataDownload.cpp: requestPiece", "mtTorrent/Core/MetadataReconstruction.cpp: getMissingPieceIndex"]}
{"id": "C99", "title": "The DHT source searches when due and peers found reach the torrent", "statement": "A started torrent looks for peers in DHT whenever its interval has passed and it is not complete; while the source says it is searching a query is at work and the addresses it finds are taken; a query that was given up has no further effect; and a search goes on until 50 new peers are found or no nodes are left to ask.", "quantifier": "For all numbers of torrents and all histories of starting, stopping, refreshing, updates at any time, found addresses and ends of queries.", "why_tests_cant": "Which query's end reaches which search depends on how stopping, starting and the answers of nodes interleave.", "anchors": ["mtTorrent/Core/Peers.cpp:545-605", "mtTorrent/Core/Dht/Communication.cpp:106-189", "mtTorrent/Core/Dht/Query.cpp: GetPeers::onResponse"]}
{"id": "C100", "title": "The bytes left, as told to trackers and shown, are exact", "statement": "At any time the number of bytes finished is the size of the pieces that are there plus the blocks that arrived of all others, each counted once, whether the piece is being downloaded or was kept when the torrent was stopped; the number told as left is the size of the torrent minus that, and is 0 exactly when everything is there.", "quantifier": "For all layouts of fewer than 2^32 pieces, all pieces there at the start and kept from before, and all histories of connections, messages, checks, selections, stops and starts.", "why_tests_cant": "Blocks move between running requests, kept pieces and finished pieces in any order of messages, checks and stops; a byte counted twice or lost shows only in particular orders.", "anchors": ["mtTorrent/Core/Torrent.cpp:427-440", "mtTorrent/Core/Downloader.cpp:129-155", "mtTorrent/Core/DownloadStorage.cpp:187-248"]}
{"id": "C101", "title": "The progress shown of a file is the share of its bytes that are there", "statement": "For every file the API tells how many of its pieces are there and which fraction of it is there. The number is exact; the fraction is that of its bytes there, never above 1, and is 1 exactly when the file is complete; stopping the torrent does not change it; asking for it never reads outside.", "quantifier": "For all files of a torrent, all pieces there at the start and kept from before, and all histories of connections, messages, checks, stops and starts.", "why_tests_cant": "The fraction is put together from finished pieces, running requests and pieces kept from before, for every file layout and every order of messages; tests look at a few layouts, mostly with one file that fills its pieces.", "anchors": ["mtTorrent/Core/Files.cpp:228-265", "mtTorrent/Core/Downloader.cpp:157-169", "mtTorrent/Core/DownloadStorage.cpp:222-231"]}
{"id": "C102", "title": "The ports listened to and forwarded are those set", "statement": "From the first torrent until the core is gone, incoming connections are taken on the TCP and UDP port of the settings and on no other, and routers are asked to forward exactly these two ports when forwarding is set, and none otherwise, after any sequence of changes of the settings. A change of other settings opens and closes no socket. Before the first torrent and after the end nothing is open or forwarded. A port that becomes free is taken.", "quantifier": "For all first settings and all sequences of torrents added, settings changed, ports found taken or free, and routers found and answering.", "why_tests_cant": "Ports, forwarding and the moment of the first torrent combine freely, as do ports taken by other programs; a wrong forward or a lost listener shows only after particular orders of changes.", "anchors": ["mtTorrent/Core/IncomingPeersListener.cpp:15-94", "mtTorrent/Core/Core.cpp:277-303", "mtTorrent/utils/UdpAsyncComm.cpp:39-61", "mtTorrent/utils/UdpAsyncComm.cpp:298-311", "mtTorrent/Core/Configuration.cpp:84-101"]}
{"id": "C103", "title": "The progress shown of a torrent is the share of its bytes that are there", "statement": "The API tells a fraction for the whole torrent and one for what is selected. Each is the share of the bytes that are there, of the torrent or of the selected pieces; it is never above 1, is 1 exactly when everything of it is there, is 0 when nothing is selected, and changes only when bytes arrive or are dropped. Asking for it never reads outside.", "quantifier": "For all layouts of fewer than 2^32 pieces, all pieces there at the start and kept from before, all selections, and all histories of connections, messages, checks, stops and starts.", "why_tests_cant": "The fraction is put together from counters, running requests and kept pieces, in any order of messages, checks and stops, for any selection; a byte counted twice, lost or counted for an unselected piece shows only in particular orders.", "anchors": ["mtTorrent/Core/Torrent.cpp:383-425", "mtTorrent/Core/PiecesProgress.cpp:12-20", "mtTorrent/Core/Downloader.cpp:143-169", "mtTorrent/Core/DownloadStorage.cpp:211-231"]}
{"id": "C104", "title": "The speeds shown are the bytes of the last second", "statement": "Once a second the API's download and upload speed of a running torrent, and of each of its connections, become the number of bytes counted since the measure before; so that the speeds shown add up to what was transferred. A stopped torrent shows none.", "quantifier": "For all histories of connections opened and closed, at any addresses in memory, blocks received and sent, measures, starts and stops.", "why_tests_cant": "A speed is a difference of counters kept in two places and matched by the address of a connection; that no byte is lost, shown twice or shown for another connection depends on every order of opening, closing, starting and measuring, and on addresses that an allocator chooses.", "anchors": ["mtTorrent/Core/FileTransfer.cpp:245-287", "mtTorrent/Core/FileTransfer.cpp:19-25", "mtTorrent/Core/FileTransfer.cpp:43-55"]}
{"id": "C105", "title": "Keys and padding are filled wholly with fresh random bytes", "statement": "Private keys and padding of encrypted handshakes get random bytes: every byte asked for and none else is written, from numbers of the generator each used once; never outside the buffer and only where the machine may store them; and no two threads or programs get the same key because of when they started, nor can a key be told from the time.", "quantifier": "For all generators and numbers they give, all buffers, places and sizes, all threads and times of first use.", "why_tests_cant": "Bytes that look random in a test may repeat in another thread or another program started in the same second, and a wrong tail or place shows only for some sizes and places, on some machines.", "anchors": ["mtTorrent/utils/DataBuffer.cpp:17-54", "mtTorrent/utils/DiffieHellman.cpp:3-7", "mtTorrent/utils/DiffieHellman.cpp:53-56", "mtTorrent/Core/ProtocolEncryption.cpp:157-164", "mtTorrent/Core/ProtocolEncryption.cpp:305-323"]}
