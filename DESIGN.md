# Formal model of mtTorrent in Lean 4

## Layout

* `lean/Verif/Model/*.lean` – executable model, function by function; every definition cites the
  file and lines of `/repo` it models and lists its simplifications.
* `lean/Verif/Spec/*.lean` – small independent specifications (only where the property needs
  vocabulary the model does not supply, e.g. "byte range of a file", "sum of piece sizes").
* `lean/Verif/Proof/*.lean` – helper lemmas.
* `lean/Verif/Props/*.lean` – the property theorems (named `C01_…` and so on), each with a
  non-vacuity `example` beside it. Nothing else lives there.
* `properties.jsonl` – the properties in English. `MANIFEST.json` – which theorem settles which.
* `seeded/LOG.jsonl` – results of editing the model with realistic bugs and rebuilding.

## Conventions

* Bytes are `UInt8`; sizes and positions are `Nat` unless the property is about wrap-around, then
  the C++ width is kept (`UInt16`, `UInt32`, or `% 2^k` written out).
* Undefined behaviour (read/write outside a buffer, division by zero, use of an uninitialised
  value, an endless loop) is a distinct outcome of the model, never a default value.
* Callbacks, clocks, random numbers, SHA-1 and the file system are parameters or inputs of the
  step function. SHA-1 is an uninterpreted function: nothing is proved about collisions.
* Concurrency: methods guarded by one mutex are atomic steps; a posted task is a separate step
  that may be scheduled at any later time. Data races inside a step are not modelled.
* A property that the code violates is settled by a theorem `Cnn_…_violated` with a concrete
  witness evaluated on the model, and the strongest true variant is proved as `Cnn_…_partial`
  with the guard stated as a hypothesis. Every violation is listed under "Disagreements".

## Trusted base

* Lean 4.33.0 kernel; axioms used: at most `propext`, `Classical.choice`, `Quot.sound`
  (checked by `#print axioms`). No axioms are declared; no `sorry`, `native_decide`, `bv_decide`.
* The reading of the C++ code. The code is not compiled or run; the citations are the link.
* Library behaviour assumed: `std::vector`, `std::map`, `std::sort`, `std::lower_bound`, `strtol`,
  `memcpy` as in the standard, 64-bit `size_t`, two's complement, little-endian host.
* Interleavings left out, so that the theorems say nothing about them: `Downloader::sortPieces` called from
  `updateMeasures` runs without `requestsMutex`; a closed peer's memory may be reused while the downloader
  still keeps its pointer in `sources`; `MetadataDownload::stop` posts its end to the pool before it calls
  `peers.stop()`, so a start posted there may have its peers stopped again; writing a state file is taken to succeed.

## Modelled parts of the code

The lines the definitions of `lean/Verif/Model` cite (paths below `/repo/mtTorrent`); everything else in
these files is not modelled.

| file | lines of | modelled |
|---|---|---|
| Api/Configuration.h | 111 | 20, 25-67, 72-97 |
| Api/Interface.h | 246 | 22-32, 39-71, 82-100, 105-109, 111-127, 149-181, 193-202 |
| Api/Torrent.h | 119 | 28-35 |
| Core/AlertsManager.cpp | 68 | 6-43, 50-67 |
| Core/AlertsManager.h | 28 | 22-25 |
| Core/Api/InterfaceImpl.cpp | 228 | 10-127, 129-200, 208-228 |
| Core/Configuration.cpp | 323 | 54, 59-72, 84-101, 103-112, 114-123, 125-135, 145-149, 168-244, 246-298, 304-321 |
| Core/Core.cpp | 342 | 67, 75-95, 100-109, 115-143, 170-231, 233-244, 246-275, 277-303, 315-316, 331-332 |
| Core/Dht/Communication.cpp | 279 | 44-60, 106-189, 262-265 |
| Core/Dht/Node.cpp | 120 | 20-40, 67-120 |
| Core/Dht/Node.h | 38 | 8-25, 29-36 |
| Core/Dht/Query.cpp | 714 | 20-66, 91-117, 138-338, 355-376, 440-449, 455-536, 576-586, 635-675, 686-714 |
| Core/Dht/Query.h | 152 | 15-22, 48-99 |
| Core/Dht/Responder.cpp | 279 | 14-279 |
| Core/Dht/Responder.h | 51 | 31-44 |
| Core/Dht/Table.cpp | 330 | 6-154, 174-177, 192-279, 316-330 |
| Core/Dht/Table.h | 64 | 39-56, 59 |
| Core/DownloadStorage.cpp | 379 | 41-53, 70-147, 154-169, 182-197, 211-220, 222-231, 233-248 |
| Core/DownloadStorage.h | 87 | 27-35 |
| Core/Downloader.cpp | 705 | 23-44, 105-123, 129-155, 157-169, 171-175, 177-190, 192-261, 263-336, 338-341, 343-370, 372-388, 390-529, 531-545, 547-642, 644-675, 677-689 |
| Core/Downloader.h | 107 | 28-29, 40-56, 71-78 |
| Core/ExtensionProtocol.cpp | 19 | 5-14, 16-19 |
| Core/ExtensionProtocol.h | 40 | 14-39 |
| Core/FileTransfer.cpp | 298 | 19-55, 57-67, 75-106, 120-141, 152-287 |
| Core/FileTransfer.h | 52 | 36-38 |
| Core/Files.cpp | 390 | 11-31, 33-76, 79-90, 92-138, 145-219, 228-265, 337-390 |
| Core/HolepunchExtension.cpp | 66 | 9-29, 46-66 |
| Core/HolepunchExtension.h | 45 | 28-33 |
| Core/HttpTrackerComm.cpp | 210 | 24-32, 44-52, 54-71, 73-77, 79-82, 84-115, 117-143, 145-193 |
| Core/HttpsTrackerComm.cpp | 110 | 31-42, 44-56, 58-88, 90-108 |
| Core/IncomingPeersListener.cpp | 270 | 15-94, 101-115, 175-268 |
| Core/IncomingPeersListener.h | 57 | 39-54 |
| Core/Interface.cpp | 129 | 4-50, 52-98, 103-124 |
| Core/Interface.h | 84 | 9, 13, 47-56, 73-81 |
| Core/MetadataDownload.cpp | 223 | 26-222 |
| Core/MetadataDownload.h | 65 | 23-64 |
| Core/MetadataExtension.cpp | 97 | 12-51, 58-75, 77-97 |
| Core/MetadataExtension.h | 35 | 12, 21-27 |
| Core/MetadataReconstruction.cpp | 58 | 5-53 |
| Core/MetadataReconstruction.h | 22 | 7-21 |
| Core/PeerCommunication.cpp | 492 | 15-97, 99-132, 163-173, 203-229, 262-288, 290-298, 305-312, 329, 363-439, 441-486 |
| Core/PeerCommunication.h | 100 | 26-41 |
| Core/PeerMessage.cpp | 91 | 6-91 |
| Core/PeerMessage.h | 57 | 8-56 |
| Core/PeerStream.cpp | 415 | 34-39, 41-58, 60-89, 91-98, 135-143, 189-214, 216-236, 238-250, 252-258, 260-271, 273-312, 314-364, 366-373, 375-397, 399-415 |
| Core/PeerStream.h | 99 | 43-97 |
| Core/Peers.cpp | 759 | 16-29, 31-55, 57-96, 98-107, 109-112, 114-153, 155-177, 179-215, 217-242, 244-262, 265-284, 301-310, 312-343, 379-390, 392-453, 468-479, 481-502, 509-518, 545-605, 607-616, 670-693, 695-730, 739-747 |
| Core/Peers.h | 147 | 46-61, 65-88 |
| Core/PexExtension.cpp | 243 | 13-16, 23-67, 69-128, 142-154, 156-220, 222-237, 239-243 |
| Core/PexExtension.h | 71 | 16, 18-24, 26-33, 35-54, 56-68 |
| Core/PiecesProgress.cpp | 255 | 4-10, 12-20, 22-255 |
| Core/PiecesProgress.h | 44 | 35-41 |
| Core/ProtocolEncryption.cpp | 404 | 4-7, 15-18, 20-29, 31-40, 42-59, 61-71, 81-101, 103-130, 157-210, 212-303, 305-326, 329-380, 382-404 |
| Core/ProtocolEncryption.h | 93 | 12-23, 34-41, 44-93 |
| Core/State.cpp | 202 | 13-66, 68-143, 151-172, 174-202 |
| Core/State.h | 53 | 9-40 |
| Core/Storage.cpp | 665 | 13-20, 30-37, 39-88, 96-124, 127-176, 206-223, 225-239, 278-381, 383-500, 502-574, 576-597, 599-611, 613-655 |
| Core/Storage.h | 81 | 21-25, 28-32, 67-72 |
| Core/Torrent.cpp | 440 | 21-49, 51-89, 91-114, 116-139, 141-151, 153-158, 160-167, 169-182, 184-192, 207-238, 240-252, 270-306, 308-351, 383-425, 427-440 |
| Core/Torrent.h | 84 | 22-76 |
| Core/TrackerManager.cpp | 239 | 12-23, 25-32, 34-67, 69-75, 83-94, 115-132, 135-177, 180-203, 205-217, 219-228, 230-239 |
| Core/TrackerManager.h | 57 | 33-44 |
| Core/UdpTrackerComm.cpp | 243 | 35-93, 110-243 |
| Core/UdpTrackerComm.h | 76 | 30-34, 43-49, 71-73 |
| Core/Uploader.cpp | 149 | 14-21, 29-40, 42-51, 53-63, 65-80, 87-131, 133-144 |
| Core/Uploader.h | 51 | 22-43 |
| Core/Utp/UtpManager.cpp | 206 | 69-82, 84-173, 189-206 |
| Core/Utp/UtpManager.h | 57 | 42-44 |
| Core/Utp/UtpStream.cpp | 923 | 15-28, 79-248, 281-524, 531-570, 582-846, 865-884, 891-923 |
| Core/Utp/UtpStream.h | 247 | 69-188, 191-232 |
| Public/Alerts.h | 32 | 18-30 |
| utils/Bandwidth.cpp | 256 | 13-16, 23-43, 45-51, 53-59, 61-69, 81-101, 129-143, 145-169, 171-256 |
| utils/Bandwidth.h | 121 | 24-66, 68-91, 94-121 |
| utils/Base32.cpp | 60 | 6-60 |
| utils/BencodeParser.cpp | 378 | 15-62, 70, 83-104, 118-137, 150-254, 256-273, 275-280, 282-285, 303-333, 340-348 |
| utils/BencodeParser.h | 95 | 15-28, 53-65 |
| utils/BencodeWriter.cpp | 144 | 9-18, 35-129, 139-144 |
| utils/BigNumber.cpp | 644 | 6-28, 46-52, 68-75, 86-167, 186-506, 621-644 |
| utils/BigNumber.h | 101 | 14 |
| utils/DataBuffer.cpp | 54 | 17-54 |
| utils/DiffieHellman.cpp | 69 | 3-47, 53-69 |
| utils/DiffieHellman.h | 26 | 6-16 |
| utils/FastIpToCountry.cpp | 88 | 5-88 |
| utils/FastIpToCountry.h | 30 | 19-20, 24-27 |
| utils/HexEncoding.cpp | 54 | 5-53 |
| utils/HttpHeader.cpp | 122 | 10-49, 56-122 |
| utils/HttpHeader.h | 16 | 5-16 |
| utils/NetAdaptersList.h | 16 | 8-13 |
| utils/Network.cpp | 199 | 4-7, 14-17, 57-69, 98-106, 122-163, 175-199 |
| utils/Network.h | 47 | 14-47 |
| utils/PacketHelper.h | 181 | 18-37, 99-104, 111-128, 136-139 |
| utils/RC4.cpp | 76 | 4-35, 37-54, 56-59, 61-76 |
| utils/RC4.h | 20 | 6-20 |
| utils/SHA.cpp | 309 | 10-23, 26-27, 30-42, 45-48, 51-54, 61-97, 104-203, 207-217, 220-223, 225-250, 256-285, 287-298, 300-309 |
| utils/ScheduledTimer.cpp | 57 | 13-18, 20-31, 33-40, 42-52 |
| utils/ServiceThreadpool.cpp | 60 | 14-17, 47-60 |
| utils/SslAsyncStream.cpp | 185 | 26-32, 68-84, 86-128, 130-148, 150-159, 161-183 |
| utils/SslAsyncStream.h | 65 | 35, 46-60 |
| utils/TcpAsyncServer.cpp | 45 | 6-8 |
| utils/TcpAsyncStream.cpp | 554 | 18-31, 52-66, 138-157, 159-192, 194-233, 248-286, 293-323, 325-344, 346-375, 377-420, 422-430, 440-449, 451-472, 474-496, 503-513, 515-549 |
| utils/TcpAsyncStream.h | 127 | 45-126 |
| utils/TorrentFileParser.cpp | 242 | 11-33, 35-77, 79-242 |
| utils/UdpAsyncComm.cpp | 366 | 23-37, 39-61, 63-73, 79-91, 98-104, 114-146, 183-199, 203-262, 269-296, 298-311, 318-352, 361-366 |
| utils/UdpAsyncComm.h | 64 | 34-44, 60-61 |
| utils/UdpAsyncReceiver.cpp | 97 | 6-14, 29-38, 40-84, 86-97 |
| utils/UdpAsyncReceiver.h | 38 | 29-37 |
| utils/UdpAsyncWriter.cpp | 351 | 14-40, 73-81, 83-94, 96-115, 118-128, 130-144, 146-157, 159-174, 176-182, 184-199, 201-239, 283-294, 306-319, 321-351 |
| utils/UdpAsyncWriter.h | 85 | 44-84 |
| utils/UpnpDiscovery.cpp | 258 | 11-16, 18-55, 63-82, 87-101, 108-158, 160-190, 192-200, 215-226 |
| utils/UpnpDiscovery.h | 61 | 17-25, 37-48 |
| utils/UpnpPortMapping.cpp | 372 | 9, 26-60, 62-77, 79-88, 97-175, 177-258, 290-342, 344-353, 355-372 |
| utils/UpnpPortMapping.h | 64 | 16, 42-63 |
| utils/Uri.cpp | 51 | 4-51 |
| utils/Uri.h | 13 | 5-13 |
| utils/UrlEncoding.cpp | 54 | 4-54 |
| utils/Xml.cpp | 321 | 15-164, 166-171, 179-183, 185-191, 198-201, 204-217, 219-222, 224-237, 239-244, 246-258, 260-273, 275-278, 280-285, 287-290, 292-296, 298-305, 307-321 |
| utils/Xml.h | 86 | 10-30 |
| utils/int128.h | 306 | 21-29 |

Files of which nothing is modelled: Api/Core.h, Api/Dht.h, Api/FileTransfer.h, Api/Files.h, Api/MetadataDownload.h, Api/Peers.h, Api/PortListener.h, Core/Api/CoreImpl.cpp, Core/Api/DhtImpl.cpp, Core/Api/FileTransferImpl.cpp, Core/Api/FilesImpl.cpp, Core/Api/ListenerImpl.cpp, Core/Api/MetadataDownloadImpl.cpp, Core/Api/PeersImpl.cpp, Core/Api/TorrentImpl.cpp, Core/Configuration.h, Core/Core.h, Core/Dht/Communication.h, Core/Dht/DataListener.h, Core/Dht/Listener.h, Core/Diagnostics/Diagnostics.cpp, Core/Diagnostics/Diagnostics.h, Core/Files.h, Core/HttpTrackerComm.h, Core/HttpsTrackerComm.h, Core/IPeerListener.h, Core/ITracker.h, Core/Logging.cpp, Core/Logging.h, Core/main.cpp, Public/Status.h, utils/Base32.h, utils/BencodeWriter.h, utils/ByteSwap.cpp, utils/ByteSwap.h, utils/DataBuffer.h, utils/Filesystem.h, utils/HexEncoding.h, utils/NetAdaptersList.cpp, utils/SHA.h, utils/ScheduledTimer.h, utils/ServiceThreadpool.h, utils/TcpAsyncServer.h, utils/TorrentFileParser.h, utils/UrlEncoding.h. Neither are the GUI, the tests, the SDK example
and `countryIpListParser`.

## Plan per property

| id | modelled | proof shape |
|----|----------|-------------|
| C01 | writer functions, parser with its flat object table and 16-bit sibling offsets, navigation API | round trip by mutual induction on the value |
| C02 | same parser with explicit out-of-bounds and divergence outcomes | witnesses for both violations; partial: buffers without sign/space length prefixes |
| C03 | generateInfoHash over the object table | range arithmetic on the parsed table, SHA-1 uninterpreted |
| C04 | parseTorrentInfo file loop | fold invariant against prefix sums; violated on exact boundaries |
| C05 | hexToString, decodeHexa | round trip by induction |
| C06 | base32decode | bit-accumulator invariant against an RFC encoder spec |
| C07 | UrlEncode, UrlDecode | round trip by induction |
| C08 | parseMagnetLink, parseTorrentHash | round trip from a link printer |
| C09 | TorrentInfo block geometry | arithmetic, tiling of `[0,size)` |
| C10 | PiecesProgress | counter invariant by induction over operations |
| C11 | getReceivedBytes | closed form against sum of piece sizes; violated when size is a multiple |
| C12 | toBitfieldData, fromBitfieldData | per-bit characterisation |
| C13 | Files::select + PiecesProgress::select | violated (wrong loop direction); partial under a layout guard |
| C14 | Storage block mapping and file contents | refinement to a flat byte array |
| C15 | WriteCache | refinement: cache overlay storage = latest store |
| C16 | WriteCache::Group | invariant on buffer offsets |
| C17 | Core/Downloader.cpp, FileTransfer.cpp, PeerCommunication.cpp (what concerns the downloader), DownloadStorage.cpp:41-53 | invariant over histories: every received piece was there, is being checked or was verified |
| C18 | PieceState | refinement to the set of received block indices |
| C19 | the same step function | simulation: the flags of the entries of a peer cover the pending blocks computed from the history |
| C20 | Model/Uploader.lean: queue, available bytes, posted runs | invariant over histories: numbers of requests sent and waiting, sizes of those kept against those sent |
| C21 | MetadataReconstruction | refinement to partial byte map |
| C22 | Torrent::downloadMetadata | violated: witness |
| C23 | message builders and parser | round trip per message |
| C24 | dataReceived loop + stream buffer | chunk-independence; violated for 64 KiB messages |
| C25 | handleMessage flags | violated (swapped); partial for choke |
| C26 | RC4 | state-passing fold, xor involution |
| C27 | BigNumber: `Powm`, `Mulm`, products, squares, `Compare`, `MsbPos`, shifts, division (Knuth D and by one digit), with signed overflow | value of digit lists: each loop has an invariant on values; partial: modulus 1 with exponent 0, one-digit moduli above 2^63 (two violations) |
| C28 | DiffieHellmanExchange, `Set` and `Export` of BigNumber; random bytes are inputs | proved for all random bytes from the power theorem of C27 |
| C29 | handshake of the listener, lookup, pieces (Model/Encryption) | key streams as positions; induction over pieces |
| C30 | uTP receive path, every event of a stream | invariant over histories: the bytes delivered are the first parts of the stream, the stored packets are later parts in buffers of their own; partial: from an open stream on, since a data packet that overtakes the answer to the syn sets the start (violated) |
| C31 | uTP send path, every event of a stream | invariant over histories: parts sent and kept, numbers, buffers, bytes in flight; partial: a FIN of the peer drops unacknowledged data (violated) |
| C32 | parseHeaderSize, readDatagram | induction over the extension chain, for every memory behind the datagram |
| C33–C38 | DHT node ids, table, responder, query | invariants / order laws; violations by witness |
| C39 | Model/Bandwidth.lean: channels, queue, ticks, close | invariant over histories: quota plus bytes set aside plus grants; shares of a channel sum to at most its quota |
| C40 | Model/Peers.lean: known peers, connections, connectNext, updateKnownPeers | each event split into small moves; invariants (places valid, addresses agree, one entry per address, bans and times remembered) over moves; cyclic visit of all entries for the use of the limit |
| C41 | Uri::Parse, TrackerManager::addTracker(s), findTrackerInfo | cases of adding, invariants over lists of addresses; violated in four ways, partial otherwise |
| C42 | UdpTrackerComm: requests, replies read with unchecked `pop`s, callbacks, `fail`; the dispatch loop of UdpAsyncComm for one tracker | each reply read is described by the bytes of the datagram, at most one callback takes a datagram, invariant for orderly histories (one wait, for the last request); partial: short datagrams, transaction id 0, announces while waiting (three violations) |
| C43 | HttpHeaderInfo::read (all of it) | round trip from a header printer; termination by the length of the rest; violated (divergence on incomplete headers) |
| C44 | Core/State.cpp, with bencode writer and parser | the written bytes are the encoding of a value; the parser theorem of C01 and lookups give the fields back |
| C45 | settings, config.xml, calls and restarts (Model/Config) | reading back the written tree (C75), invariant over histories |
| C46 | Core/PexExtension.cpp, Core/Peers.cpp:481-502 | invariant over histories of ticks: the set is that of the latest update, the data are the encoding of the change |
| C47 | list of torrents: adding in two steps, removal, launch, .torrent files (Model/Core) | invariant over histories; merging by induction over the addresses |
| C48 | Torrent start/stop/save, the metadata state and the check in the pool (Model/Torrent) | invariants over histories of calls, pool work, shutdowns and launches; the failing corners by evaluation |
| C49 | FastIpToCountry (all of it) | binary search proved for sorted lists, compared with the last range that starts at or before the address in the whole table; round trip of the file by induction over names and buckets |
| C50 | AlertsManager (all of it) | histories of raise, register and pop by induction; results compared with the alerts of the history that were registered when raised |
| C51 | UdpAsyncComm: the pending list, timers, `onUdpReceive`/`onDirectUdpReceive` (one `ask` per callback), `onUdpClose`, `checkTimeout` in its two critical sections, cancellation, as a transition system over arbitrary schedules | invariant over all schedules (at most one outcome, at most one retry, one request per datagram, nothing forgotten, no null timer); under fairness of timers every request ends, if no two share a client and no timer is looked up during a hand-out (partial: two violations) |
| C52 | Addr | round trip; order laws violated across families |
| C54 | UtMetadata::Load, addPiece | explicit buffer bounds; violated: overflow witness |
| C56 | announceTokenReceived, announceRequest with the responder | our announce against our responder; violated: the node's id is announced |
| C57 | Query::parseGetPeersResponse, NodeInfo::parse, Addr::parse | refinement to a reader of bencode values for well-sized messages; violated for the others |
| C58 | Responder::handlePacket, writeNodes, writeValues | refinement to a function on bencode values; shape of the reply for arbitrary bytes; violated for negative lengths |
| C59 | Table::getClosestNodes | visiting order of buckets; violated for the two nearest ids |
| C60 | getPeersRequest, Responder::handlePacket, parseGetPeersResponse | both sides composed, on bytes; violated for IPv6 nodes |
| C61 | HttpTracker::readAnnounceResponse | C43 composed with the bencode reader; violated for lengths near 2^32 |
| C62 | uTP receive path | the C30 invariant with nothing refused; partial: numbers that do not pass 65535 (violated at the wrap: stall; violated for repeated early packets: endless loop) |
| C63 | all of the modelled stream: writing, acks, selective acks, resending, stored packets, state packets with selective acks, timeouts | no history reaches `.ub`: the C31 invariant puts every index of a sent packet in range, `Safe` every index of a stored one, the place of the last stored packet lies in the last byte of a selective ack, and `Timed` bounds `timeoutCount` (which is never reset) through the 30 s limit; proved under `Orderly` |
| C64 | `sendState`, `prepareStateHeader`, `prepareSelectiveAckData` | bit `j` of byte `i` is set iff the packet `ack + 2 + 8 * i + j` is stored (soundness for any list, completeness for lists in order), stored packets arrived (induction over histories), acks by the C30 invariant; partial: completeness without wrap |
| C55 | toIpv4String | exhaustive over octets, induction over the port digits; violated for 100-109, 200-209 |
| C65 | Uri::Parse | round trip from a printer of addresses; violated for IPv6 hosts |
| C66 | TrackerManager start, stop, callbacks of trackers and timers, ScheduledTimer, the vector with its memory block and capacity; posted tasks run in any order | invariant over histories: one thing under way per running tracker, pointers of timers valid; partial: orderly histories (four violations) |
| C68 | Model/Uploader.lean over Model/Storage.lean | bounds of getFileBlockPosition for all 32-bit offsets and lengths; C14 for the content |
| C70 | Core/PexExtension.cpp:156-220 | parser theorem, then the loop over addresses |
| C73 | Model/Peers.lean | invariant: last times of entries bound the trace |
| C75 | reader and writer (Model/Xml) | induction over trees: elements with relative offsets; search among siblings |
| C76 | the unrolled function (Model/Sha1) | the rounds in groups of five against the recursion of FIPS 180-4; invariant over parts |
| C77 | both ends (Model/Encryption) | composition of C28, message 3, C29 and message 4; key streams of a concrete key computed on numbers (Proof/RC4Code) |
| C71 | messages, handler, search for help (Model/Extension) | byte-wise round trip; first match in the list of connections |
| C72 | writer and reader of the handshake (Model/Extension) | the parsed objects of C01 walked by the loop over m; the written bytes are the encoding of a value |
| C74 | createTorrentFileData, tracker import, reading (Model/Metafile) | what is written is the encoding of a value; C78 for that value; the fields determine the record |
| C78 | parse, parseTorrentInfo, the file loop (Model/Metafile) | keys looked up in the parsed table (C01), loops over lists by induction; layout by C04's parseInfo; the 65536th object by walking the written bytes |
| C79 | UrlParser, datagrams, onReceive, onRootXml, requests (Model/Upnp) | search for the separators in the text; C43 for the header; requests split into header and body |
| C80 | refreshMapping and its callers, answers and closings (Model/Upnp), the router's table in the Spec | invariant over all events; the requests left are counted by a measure that each granted request lowers by one |
| C81 | TcpAsyncStream except names, timers and callbacks (Model/Tcp), sockets and receivers in the Spec | invariant over all events: used ++ kept = arrived, room behind what is kept, sent ++ waiting = written |
| C82 | PeerStream with any handshake (Model/PeerStream) | invariant over arrivals and writes: used ++ kept = decrypted rest of what arrived; what was shown before is what is not decrypted again |
| C83 | opening, closing, retrying (Model/PeerStream); peers in the Spec | every combination of settings and peers; induction over refusals for the endless retry |
| C84 | readStreamData, startPeer (Model/Incoming) | induction over pieces; the handshake of Model/Encryption uses all data when it is over |
| C85 | UdpAsyncReceiver (Model/UdpSocket) | what was handed on and what is kept is what was read; induction over what is in the socket |
| C86 | UdpAsyncWriter (Model/UdpSocket) | invariant over all histories for what is sent; induction over messages and answers |
| C87 | onUdpPacket, onNewConnection (Model/UtpManager) | what is remembered is what would be found; induction over the batch |
| C69 | Downloader, PiecesProgress (Model/Downloader, Model/Progress) | invariant over all histories: lengths of all tables, every request names a piece and a block; the loops end |
| C53 | Core/Storage checkStoredPieces, Core/Files checkFiles (Model/FileCheck) | loop invariant of a worker over files and pieces: buffer and stream hold the piece or were moved past it; then the progress of Model/Progress |
| C67 | Core/HttpTrackerComm createAnnounceRequest (Model/HttpComm) | a server's reader of request lines in Spec/HttpComm; all bytes of values are letters, digits, % and _, so the cuts fall where they were made |
| C88 | Core/HttpTrackerComm with its TCP streams (Model/HttpComm) | counting invariant of outputs over all histories; induction over the parts of the reply; invariants of the stuck states |
| C89 | Core/HttpsTrackerComm, utils/SslAsyncStream (Model/HttpComm) | the same with the states of the TLS socket |
| C90 | Core/Storage getFullpath, utils/TorrentFileParser (Model/Location, Model/Metafile) | the parts of the text are the names, none of which steps up |
| C91 | Core/Storage setPath, createPath (Model/Location) | what rename does to every place of a file system in which everything is in a folder |
| C92 | Core/Storage deleteAll (Model/Location) | removing only removes; each place is followed through the loop |
| C93 | Core/Storage validatePath, getAllocatedSize (Model/Location) | sums over the loop |
| C94 | Core/Interface SelectedFiles (Model/SelectedFiles) | bytes of a file in pieces of others are at its two ends; counting them |
| C95 | Model/Downloader | for every connected peer and piece: told on this connection, or to be announced at the next tick, or being checked; carried through all events |
| C96 | Model/PeersEval | what the loop collects is the filter of the list by age, activity and interest, the slowest is minimal; then the two sorts split the lists |
| C97 | Model/MetadataServe | load of a request, answer, load of the answer and adding it, over the invariant of C21 |
| C98 | Model/MetadataDownload | potential: answers plus requests on their way for pieces already there are at most pieces received times requests in flight; every event keeps it |
| C99 | Model/DhtSource | invariant: at most one entry per torrent, exactly while announcing, and at least as many running queries |
| C100 | Model/DataLeft | invariant over all events: requests sorted by piece, their and the kept pieces' sizes equal the marked blocks, kept pieces have no request and are not there, each once; then sums over pieces |
| C101 | Model/FileProgress | uses the invariant of C100: each piece is told from its request, from what is kept, or as there; then sums over the pieces of a file |
| C102 | Model/Ports | invariant over all events: what the listener remembers equals the settings, sockets are none or on the set port, wishes are exactly the set ports |
| C103 | Model/TorrentProgress | uses the invariant of C100: what arrived of a piece is in its request or kept, not both, and never of a piece that is there; counters from C10 |
| C104 | Model/Measures | the difference to the last counters is the sum since the last measure; addresses of connections are distinct |
| C105 | Model/RandomData | bytes written word by word are those of the numbers in order; seed is a function of the time alone, for any generator |

Not expressible in this model (whole list): real-time behaviour of timers, data races, OS file
locking, actual network delivery, floating-point percentages.

## Disagreements between properties and code

Each is a theorem about the model of the code as it is; the code was read, not run.

- `Verif.C02_endless_recursion_violated`: The four bytes "d-4:" make the parser recurse for ever, whatever follows them in memory.
- `Verif.C02_nested_overread_violated`: The parser looks `k` bytes past the end of a buffer of `k` bytes 'l': with at most `k` readable bytes after it, parsing never ends well.
- `Verif.C02_wellformed_overread_violated`: Even a well-formed list or dictionary makes the parser read the byte after the buffer.
- `Verif.C03_value_named_info_violated`: A text value "info" before the info dictionary is taken for its key: the torrent gets no id.
- `Verif.C04_boundary_violated`: Every multi-file torrent whose total size is a multiple of the piece size reports an empty last piece, although its last piece is a full one.
- `Verif.C04_empty_tail_violated`: An empty file after a file ending on a piece boundary is placed in a piece that does not exist, and the torrent's last piece index is that piece.
- `Verif.C04_zero_piece_size_violated`: A zero piece length is divided by.
- `Verif.C09_last_piece_violated`: For a multi-file torrent whose size is a multiple of the piece size the last piece is asked for in 2^18 blocks, none of which is the whole piece: with 32 KiB pieces and files of 20000 and 45536 bytes block 2 of the last piece starts outside the piece.
- `Verif.C100_length_violated`: **Violated**: the length of a block that arrives is not compared with what was asked. One of 60000 bytes makes more bytes there than the torrent has, and what is left wraps to almost 2^64.
- `Verif.C100_multiple_violated`: **Violated**: with a size that is a multiple of the piece size a complete torrent tells that one piece is left.
- `Verif.C100_selected_violated`: **Violated**: the bytes of the selected files leave out what is kept of pieces: they fall when the torrent is stopped, though nothing is lost.
- `Verif.C101_empty_violated`: **Violated**: an empty file behind a full last piece has a piece that does not exist; to show its progress is to read outside.
- `Verif.C101_last_violated`: **Violated**: the short last piece counts as a full one. 7232 of 40000 bytes are shown as half.
- `Verif.C101_neighbour_violated`: **Violated**: bytes of another file in a shared piece count. The first file is there and nothing of the second; both are shown with progress, the first, which is complete, with half, the second, of which there is nothing, with a quarter.
- `Verif.C102_gone_violated`: **Violated**: settings changed after the core is gone call the listener that was deleted.
- `Verif.C102_taken_violated`: **Violated**: a port that is taken when it is tried is not tried again, though it is free later and settings change; routers forward it to nobody.
- `Verif.C102_zero_violated`: **Violated**: when the first torrent comes while the UDP port is 0, UDP is not listened to whatever is set later.
- `Verif.C103_jump_violated`: **Violated**: an arrived short last piece is shown with less before it is checked: it jumps from 7232 to 32768 of 65536 with the same bytes.
- `Verif.C103_kept_violated`: **Violated**: a kept piece from a saved state that is not of the torrent, of which nothing is there, is read outside.
- `Verif.C103_last_violated`: **Violated**: the short last piece counts as a full one. 7232 of 40000 bytes are shown as half.
- `Verif.C104_first_violated`: **Violated**: what a connection receives before it is first measured is never shown as its speed; the torrent shows it.
- `Verif.C104_reused_violated`: **Violated**: a new connection at the address of one closed in the same second is measured against the bytes of the former.
- `Verif.C104_start_violated`: **Violated**: starting a torrent that is running hides the bytes of that second.
- `Verif.C104_wrap_violated`: **Violated**: a second of 2^32 bytes is shown as none.
- `Verif.C105_few_violated`: **Violated**: whatever the generator, the first private key of 768 bits is one of 2^32, and told by the second in which it was made.
- `Verif.C105_padding_violated`: **Violated**: padding of 8 bytes or more in the third and fourth message of an encrypted handshake is stored as words at places that are not a multiple of 8.
- `Verif.C105_same_violated`: **Violated**: whatever the generator, two threads that first use theirs in the same second make the same private key.
- `Verif.C11_received_bytes_violated`: The property fails for every torrent whose size is a multiple of the piece size: with all pieces received the reported number misses one whole piece.
- `Verif.C12_bitfield_float_violated`: Above 2^24 pieces the byte index is computed in `float` and rounds up: recording piece 16777223 of a torrent of 16777224 pieces writes outside the bitfield.
- `Verif.C12_short_bitfield_violated`: A peer that completed the handshake (so the piece count is known) and sends a too short bitfield makes the parser read outside the message.
- `Verif.C13_empty_file_violated`: An empty file behind a full last piece lies in a piece that does not exist: unselecting it writes outside the piece table.
- `Verif.C13_small_files_violated`: Three files of 14, 1 and 7 bytes in pieces of 4: piece 3 holds data of all of them. Unselecting the second and then the first file also unselects piece 3, which the still selected third file needs.
- `Verif.C14_boundary_violated`: A file of a multi-file torrent filling exactly its first piece: storing that piece reports success and writes nothing, loading it reports success and returns nothing, for every piece size and any data.
- `Verif.C14_empty_store_violated`: An empty list of blocks is not handled.
- `Verif.C14_temp_move_violated`: Growing a file that so far holds only its two edge pieces moves the end piece to the wrong place: here the file's last two bytes 8, 9 of a 10-byte file become bytes 9 and 10, and the file 11 bytes long.
- `Verif.C15_double_flush_violated`: `flush()` twice in a row flushes the same group twice; the second flush has no blocks.
- `Verif.C15_flush_loses_block_violated`: A block stored while `flush()` is writing its group is dropped: it is neither cached nor in the file.
- `Verif.C15_stale_block_violated`: A block received twice: while both copies are cached, a read returns the older one.
- `Verif.C15_write_error_violated`: When the storage fails (here: the file is gone) the blocks are dropped all the same.
- `Verif.C16_oversized_block_violated`: A block larger than a group is written past the end of the buffer.
- `Verif.C17_bitfield_violated`: C17 fails: the bitfield sent after a handshake contains a piece that is still being checked, and then fails.
- `Verif.C17_deselected_violated`: C17 fails: a piece completed between deselection and the refresh of the requests is never checked, counts as received, and the download is reported finished with it selected again.
- `Verif.C17_reselected_violated`: C17 fails: the end is posted, a file is selected before it is reported.
- `Verif.C17_stalled_violated`: C17 fails: a piece from two sources fails its check when nothing else is left to download. It is wanted, both peers have it and let us ask, and nothing is asked for, however often the timer fires: it is not downloaded again.
- `Verif.C18_empty_block_violated`: The length of a block plays no role: empty blocks complete the piece.
- `Verif.C18_misaligned_violated`: Blocks offset by one byte from the block grid complete a piece: with three blocks at 16383, 32767 and 0 no block `1` or `2` ever arrived, and yet the piece counts as complete.
- `Verif.C19_deselected_violated`: C19 fails: between the change of the selection and the refresh of the requests, blocks of a piece no longer selected are asked for.
- `Verif.C19_early_have_violated`: C19 fails: a message before the handshake makes the peer appear to have everything (its table then has one element).
- `Verif.C19_other_peer_violated`: C19 fails: a piece is completed by another peer and fails its check; a peer that never answered is asked for the same blocks again.
- `Verif.C19_unchoke_violated`: C19 fails: an unchoke without a choke before, and everything is asked for again.
- `Verif.C20_negative_violated`: C20 is false as to granted bytes: a peer asks for 2^32-1 bytes and leaves; the manager grants -1 byte (`C39_amount_violated`), and the uploader has 2^32-1 bytes to send from then on.
- `Verif.C20_overtaken_violated`: C20 is false as to the order of requests of a peer: a smaller block overtakes a larger one, when the grant is enough for the smaller one only.
- `Verif.C20_stalled_violated`: C20 is false as to requests being lost: when the manager grants at once what the queue asks for after sending, nothing sends the blocks that wait; neither bytes are asked for nor is a run of the queue on its way. The manager does so when its quota is large enough: here after eight grants of 100 bytes at a limit of 1000 bytes per second.
- `Verif.C20_wrap_violated`: C20 is false as to requests being lost: when the lengths that wait sum up to 2^32, no bytes are asked for.
- `Verif.C22_any_metadata_accepted_violated`: Whatever bytes the peers send, they become the torrent's info, with an id computed from these very bytes: for every metadata `m` there is a run of the download after which the info is `m`, whatever id the magnet link had. So metadata with a different hash is accepted.
- `Verif.C23_empty_block_violated`: C23 is false for an empty block: index, offset and length of the received message stay uninitialised.
- `Verif.C23_large_message_violated`: C23 is false for messages of 64 KiB and more, e.g. the bitfield of a torrent with 524288 pieces: the consumed size never equals the size of the message.
- `Verif.C24_endless_loop_violated`: C24 is false for a complete message of exactly 65536 bytes with a known id: the receive loop never ends, on every content and whatever follows.
- `Verif.C24_unknown_id_violated`: C24 is false with an unknown message id: everything received together with it is dropped, so the choke message is lost or handled depending on the cut.
- `Verif.C25_interest_inverted_violated`: C25 is false for the peer's interest: it is reported inverted, in every state.
- `Verif.C27_one_violated`: C27 fails: the 0th power modulo 1 is returned as 1.
- `Verif.C27_overflow_violated`: C27 fails: division by one digit overflows a signed double digit (undefined behaviour) when the remainder so far is 2^63, which needs a modulus above 2^63. The dividend here is the square of the base.
- `Verif.C29_refused_violated`: C29 fails: the only torrent served is asked for and the peer is refused, because one byte of SHA1("req3" S) equals the byte of "req3" S at its place. Here the secret is the byte 2 ninety-six times; every secret has this chance of about one in thirteen.
- `Verif.C29_wrong_violated`: C29 fails: with two torrents served, a peer that asks for the second reaches the first. The shared secret of this witness is the number 0 (what a peer that sends the key 0 brings about); the rest of message 3 does not matter.
- `Verif.C30_first_violated`: C30 is violated while a stream opens: if a later data packet comes before the answer to the syn, the stream starts there, and the bytes delivered are no prefix of those sent.
- `Verif.C31_fin_violated`: C31 is violated when the peer ends its side: everything kept and waiting is thrown away although nothing was acknowledged, and the stream is still open.
- `Verif.C33_own_id_violated`: C33 is false for the own id and the all-zero id: whoever claims one of them is recorded like any other node, although the check for invalid ids exists.
- `Verif.C33_reload_violated`: C33 does not survive loading into a table in use (done at every start of the DHT after a stop): every node of a reloaded table is there twice.
- `Verif.C34_nearest_violated`: C34 is false for the ids at distance 0 and 1, the target itself and its neighbour: they are never closer than anything.
- `Verif.C35_forgery_violated`: C35 is false: whoever got a token for one address can compute the token of every other address from it, since the secret is only added to the sum of the characters.
- `Verif.C35_no_rotation_violated`: C35 is false for the rotation: the refresh timer does not schedule itself again. From the moment it fires, no history without a restart of the DHT changes the secrets, so tokens stay valid for ever.
- `Verif.C35_same_sum_violated`: C35 is false even for tokens as they were issued: the token of 1.2.3.4 is that of 4.3.2.1.
- `Verif.C36_family_violated`: C36 is false with both families: an IPv6 peer whose address starts with the four bytes of a stored IPv4 peer takes its place, and a peer can get stored twice.
- `Verif.C36_never_expires_violated`: C36 is false for the expiry: the refresh timer does not schedule itself again. From the moment it fires, no history without a restart of the DHT lowers the number of peers stored for an info hash, however long it lasts.
- `Verif.C37_early_finish_violated`: A lookup for peers is reported as finished while a response is still awaited, and once more when that response comes, after any other packet from the last node queried.
- `Verif.C37_exact_violated`: C37 is false for the exact distance: of the candidates with the same highest bit the first is replaced, not the farthest, so that a closer node is dropped and a farther one kept.
- `Verif.C37_far_violated`: C37 is false once 32 nodes have been taken: a node farther from the target, by the place of the highest bit, than the one answering is dropped although the list has room and holds a node farther still.
- `Verif.C37_outstanding_violated`: The limit of 5 requests at a time does not hold: any packet from a queried node that is not the response ends the counting of its request, but not the wait for the response. Here 6 requests are outstanding after a start with one node.
- `Verif.C37_requeried_violated`: C37 is false for the nodes queried at the start: they are not recorded, and when an answer names one of them it is queried again.
- `Verif.C38_marker_violated`: C38 is false for other tables: a node whose id contains the text of the end marker makes the load read outside the text.
- `Verif.C39_amount_violated`: C39 is false when the amount is not a positive `int`: the length of a peer's request is the amount, without a check (Core/Uploader.cpp:18-46). The request for 2^32-1 bytes is one for -1 byte; the user is given -1, which it takes for 2^32-1 bytes (Core/Uploader.cpp:48-58), and the count of queued bytes stays wrong.
- `Verif.C40_right_violated`: The connection to the IPv6 address, asked for by a peer, is taken for one to the IPv4 address.
- `Verif.C40_single_violated`: Without uTP a holepunch message opens no stream, and the next one connects to the same peer once more.
- `Verif.C40_unwanted_twice_violated`: A tracker names a peer twice. It is banned and dialled again.
- `Verif.C40_unwanted_violated`: A peer that was banned connects to us from the same port, leaves, and is dialled again.
- `Verif.C41_default_port_violated`: C41 is false for http addresses without port: the tracker is refused.
- `Verif.C41_https_violated`: C41 is false for https addresses without port: they are not compared at all.
- `Verif.C41_path_violated`: C41 is false for the path of a http tracker given after a udp address of the host: it is dropped, and the http tracker is later asked under another path.
- `Verif.C41_two_ports_violated`: C41 is false for a host with two ports: the second is compared only with the first entry of the host, and is entered again each time it is given.
- `Verif.C42_mistaken_violated`: C42 is false if announces are asked for while replies are awaited (`Peers::refreshSource`): the callbacks do not know which request they were made for. In this history all datagrams are genuine, but the second copy of the announce reply is taken as a connect reply: its interval and number of leechers become the connection id, with which the next announce is sent.
- `Verif.C42_short_violated`: C42 is false for datagrams of less than 8 bytes: with an announce waiting, each of them is read beyond its end.
- `Verif.C42_zero_violated`: C42 is false when the random transaction id of a connect request is 0: any datagram of 1 to 15 bytes is then taken as the reply, and an announce with the connection id 0 follows.
- `Verif.C43_case_violated`: C43 is false for values with small letters: they are reported in capitals, so the path of a location is lost.
- `Verif.C43_chunk_memory_violated`: C43 is false for a chunked body that has arrived in part: the size of the next chunk is read from behind the buffer.
- `Verif.C43_chunks_violated`: C43 is false for a body in several chunks: the size reported is that of the first chunk only.
- `Verif.C43_number_violated`: C43 is false for a length that is not a number: the exception of `std::stoul` is not caught.
- `Verif.C43_prefix_violated`: C43 is false for headers that have arrived in part: if of the last line received there are two bytes or more but not its end, reading does not end, whatever lines came before.
- `Verif.C43_space_violated`: C43 is false for "name:value" lines without a space: the first byte of the value is not reported.
- `Verif.C44_full_size_violated`: A torrent of 5 GiB comes back as one of 1 GiB.
- `Verif.C45_directory_violated`: C45 fails: a directory with `]]>` in its name is cut there.
- `Verif.C45_empty_violated`: C45 fails: no directory becomes the directory of the process.
- `Verif.C45_encryption_violated`: C45 fails: the encryption that was required is only allowed after a restart.
- `Verif.C45_id_violated`: C45 fails: a new id is not saved when nothing else has changed since loading.
- `Verif.C45_preferUtp_violated`: C45 fails: a preference for uTP is lost, and setting nothing else is ignored at once.
- `Verif.C45_unreadable_violated`: C45 fails: with `]]><` in the name of the directory the file cannot be read any more, and all settings are lost.
- `Verif.C46_again_violated`: A peer connected all the time is listed as added in the second message as well.
- `Verif.C46_first_garbage_violated`: With one peer more, something remains after such a cut, but it is no extended message: its fifth byte is not 20.
- `Verif.C46_first_violated`: A first message built after an update without a connection gone, which follows one with, is cut at the place the older one had: here less than four bytes remain and the length is written to memory that is not its own.
- `Verif.C46_ipv6_dropped_violated`: A disconnected IPv6 peer is told as three IPv4 addresses that were never connected.
- `Verif.C46_skipped_violated`: The update of second 120 is never told to the peer that was sent its first message at second 100: peer 1 has gone, and no message says so.
- `Verif.C47_garbage_violated`: Data that is no torrent file has the hash 0, and is taken for the torrent with that hash if there is one.
- `Verif.C47_metadata_violated`: A peer answers the request for the metadata of a magnet with the info dictionary of another torrent that is there: the magnet takes its hash (see C22).
- `Verif.C47_missing_violated`: The `.torrent` file of a torrent is lost. Adding the file again, with a further tracker, returns Merged, but what is written has an info dictionary without pieces, so after the next start the torrent has another hash, and adding the file adds a second torrent.
- `Verif.C47_race_violated`: Two threads add the same file at the same time: both find nothing, both append.
- `Verif.C48_checking_violated`: A check, called off by a stop, ends while the next check is at work: that one is no longer reported.
- `Verif.C48_empty_violated`: The `.torrent` file is gone: the first start fails, the second returns Success and the torrent is reported active and exchanges data although it knows nothing of its pieces.
- `Verif.C48_forgotten_violated`: A magnet stopped and started again before its metadata arrives: the start returns Success, but when the metadata is there the torrent is stopped.
- `Verif.C48_gone_violated`: The client ends just after metadata of a magnet became complete: the handler in the pool uses the metadata download after it is gone.
- `Verif.C48_hangs_violated`: A manual stop that finds the metadata of a started magnet just complete never returns: the callback posts a start, and stopping waits, holding the torrent's mutex, for a start that waits for the mutex.
- `Verif.C48_lost_violated`: A started magnet whose metadata has not arrived when the client ends is not there after the launch.
- `Verif.C48_revived_violated`: A start waiting in the pool revives a torrent stopped by hand in between.
- `Verif.C48_stays_violated`: A torrent runs, the client ends and is launched while the disk is missing, so that the start fails; the user stops the torrent. It is not remembered: at the next launch it runs.
- `Verif.C49_earlier_bucket_violated`: C49 does not hold: for an address in a range that starts with another first byte the lookup returns no country.
- `Verif.C49_last_range_violated`: C49 does not hold: for an address in the last range that starts with its first byte the lookup returns no country, although the address is in that range and the range has a country with a name.
- `Verif.C49_path_violated`: C49 does not hold: a table is saved under a name from which it is not loaded, for every folder.
- `Verif.C51_lost_violated`: C51 is false: a timer that expires while a datagram for its client is handed out does not find its request, and nobody starts it again. Here the request is in the list without outcome, no timer runs, none has expired, and no handler is under way: no step of timers or of dispatch can be taken any more. Only another datagram or closing ends the wait.
- `Verif.C51_shared_violated`: C51 is false for two requests on one client, without any race: the timer of the second counts for the first. When that is answered, the second waits without a timer.
- `Verif.C52_families_violated`: C52 is false across families: an IPv4 address equals an IPv6 address starting with the same bytes, but not the other way round; and none of `<`, `==`, `>` holds starting from the IPv6 side.
- `Verif.C53_boundary_violated`: A torrent whose size is a multiple of the piece size: after the last piece the worker whose turn it would be asks whether the piece after it is to be checked, and reads past the end of the table.
- `Verif.C53_last_violated`: If of the last file only the ends are kept its end is not found, though all its bytes are there.
- `Verif.C53_longer_violated`: A file that is longer than it should be: none of its pieces are found, though all their bytes are there.
- `Verif.C53_missing_violated`: A piece that spans three files, of which the one in the middle does not exist: its bytes are taken from what the buffer had there, here the zeros it was made with. The piece is found though two of its bytes are nowhere.
- `Verif.C54_metadata_overflow_violated`: A peer that announces metadata of five bytes and then sends a piece message with a larger payload makes the client write past the end of the metadata buffer: the message is accepted as it stands (`load`), its payload is only compared with 16 KiB.
- `Verif.C54_missing_type_violated`: A message without `msg_type` is accepted and its uninitialised type is used.
- `Verif.C55_lost_digit_violated`: C55 is false for the other octets: 100–109 and 200–209 lose their middle digit, so different addresses get the same text.
- `Verif.C56_announces_node_id_violated`: C56 is false for what is announced: after an answer with a token the id of the answering node is announced in place of the hash that was looked up, which is a different message unless the two are the same.
- `Verif.C56_not_found_violated`: Two of these clients: one looks up a hash at the other, gets a token and announces. The other has then stored it under its own id and still has the one peer it had for the hash.
- `Verif.C57_error_violated`: C57 is false for an error whose first element is a list: its text is a null pointer.
- `Verif.C57_memory_violated`: C57 is false for messages ending in a short entry of `values`: the peers found depend on what is left behind the message in the receive buffer, here the port of the peer.
- `Verif.C57_nodes_violated`: C57 is false for a string of nodes whose length is no multiple of 26: nodes are read beyond it and beyond the message.
- `Verif.C57_token_violated`: C57 is false for a token with the length 4294967295, which becomes -1.
- `Verif.C57_uninitialised_violated`: C57 is false for answers without an id: the id compared with the one of the queried node is then memory that was never written.
- `Verif.C57_values_violated`: C57 is false for short entries of `values`: six bytes are always read.
- `Verif.C58_negative_size_violated`: C58 does not hold for all packets: one with a transaction id of announced length 4294967295, which becomes -1, makes the node copy a range of negative length. A single datagram does this, whatever the state of the node.
- `Verif.C59_neighbour_violated`: C59 is false for the two ids nearest to the own one: they are never given, even alone in the table and asked for themselves.
- `Verif.C60_ipv6_violated`: C60 is false with an IPv6 node among the closest: it is put into `nodes`, where the other side expects IPv4 nodes, so two nodes are found where there is one, none of them the right one.
- `Verif.C61_overrun_violated`: C61 is false for a length near 2³²: the sum of header and length overflows and the reply counts as complete. Peers are then read from the memory behind the buffer: the same reply gives different peers with different bytes there, and is undefined if the memory ends.
- `Verif.C61_split_violated`: C61 is false for a header that arrives in parts: reading the first part does not end.
- `Verif.C62_duplicates_violated`: C62 is violated by repeated packets: each copy of an early packet takes a buffer for good, and with 65536 of them in use the search for a free one never ends.
- `Verif.C62_wrap_violated`: C62 is violated where numbers pass 65535: a packet with number 0 that comes early is never delivered from the store, and everything stored behind it waits with it.
- `Verif.C64_wrap_violated`: C64 is violated where numbers pass 65535: behind a packet 0 that came early and stays stored (`C62_wrap_violated`) nothing is named. All three parts have arrived, but the ack covers the first one only and no bit of the selective ack is set.
- `Verif.C65_ipv6_violated`: C65 is false for hosts written as IPv6 addresses: host and port are cut at the first ':'.
- `Verif.C66_forgotten_violated`: C66 is false for a tracker added while others run also for the new one: nothing asks it, and when everything posted has run nothing ever will.
- `Verif.C66_late_start_violated`: C66 is false for a stop right after a start: what was posted by the start runs after the stop, and the stopped tracker is asked. Its answer is then dropped.
- `Verif.C66_moved_violated`: C66 is false for a tracker added while others run (`Peers::importTrackers`): the vector moves to other memory, and the timer of the running tracker is left with a pointer to the old one.
- `Verif.C66_refresh_violated`: C66 is false if the user asks for an announce while the timer for the next one runs (`Peers::refreshSource`): when that announce fails and http is tried next, the tracker gets a new timer while the old one runs. The stop ends only the new one, and when the old one fires the tracker object is gone.
- `Verif.C67_nopath_violated`: C67 is false for trackers whose URL has no path: what is asked for does not begin with a slash.
- `Verif.C67_query_violated`: C67 is false for trackers whose URL has a query, as private trackers have it: the hash becomes a part of the last value of that query, and no field has the name `info_hash`.
- `Verif.C68_overflow_violated`: C68 is false when a file that starts inside a piece ends at the end of it: the number of bytes to read is negative, and the file is read past the end of the buffer. Here files of 3 and 5 bytes, pieces of 8 bytes, and a request for the first 4 bytes.
- `Verif.C68_stale_violated`: C68 is false for a piece that does not exist, or a file that is not there: the bytes left in the buffer are sent. Here piece 9 is "sent", with the bytes of piece 0.
- `Verif.C68_usual_overflow_violated`: The same with the usual sizes: two files in a piece of 32 KiB, of which one has 100 bytes, and a request for 16 KiB.
- `Verif.C69_bitfield_violated`: C69 is violated: a bitfield that is too short.
- `Verif.C69_block_violated`: C69 is violated: a block that begins past the end of a piece being asked for.
- `Verif.C69_blocks_violated`: C69 is violated: pieces of 65536 blocks, 1 GiB, are divided by zero when a peer that has them lets us ask.
- `Verif.C69_counted_violated`: C69 is violated: `have` before the bitfield decides how long the table of the pieces of the peer is; when the bitfield comes the pieces of the peer are counted past its end, though everything is downloaded. All messages name pieces the torrent has.
- `Verif.C69_early_violated`: C69 is violated: `have` before the handshake decides how long the table of the pieces of the peer is; when the peer lets us ask, pieces are looked up past its end. All messages name pieces the torrent has.
- `Verif.C69_have_max_violated`: C69 is violated: the index 2^32 - 1 makes the table of the pieces of the peer empty, and then it is read, even before anything is downloaded.
- `Verif.C69_have_violated`: C69 is violated: a peer says that it has a piece past the last one, and the table of our pieces is read there.
- `Verif.C70_reserve_violated`: As before, with a length that makes `reserve` throw.
- `Verif.C70_size_violated`: A message whose text claims a size of 4294967295, which is taken for -1, ends the program: the vector is asked for an absurd size.
- `Verif.C71_crash_violated`: Any peer can end the program: one that has not announced the extension asks for an address, and the answer is sent through a null pointer.
- `Verif.C71_family_violated`: A peer that asks for an IPv6 address is introduced to an IPv4 peer with the same first bytes, which is told of it.
- `Verif.C71_self_violated`: A peer that asks for itself is told to connect to itself, twice.
- `Verif.C71_short_violated`: An error without a number is read behind its end.
- `Verif.C71_silent_violated`: A peer that asks for one that does not support it is not answered.
- `Verif.C72_address_violated`: What the other side is told about its address is its text, but only four bytes are taken for an address: it is never learned, and of an IPv6 address with a text of four characters another address is.
- `Verif.C72_list_violated`: A list in place of the number of an extension, and the null pointer is read.
- `Verif.C72_text_violated`: Digits of a text are taken for the number, together with what follows them: here 1 and the length of the next key.
- `Verif.C73_twice_violated`: A tracker names a peer twice. It is dialled twice at the same time.
- `Verif.C74_magnet_violated`: A magnet link without metadata: a tracker is added, so a file is saved (Core/Peers.cpp:333-341); reading it at the next start divides by zero.
- `Verif.C74_names_violated`: The info of two files, as it is read from metadata without keeping its bytes: the saved file has lost the names of the files, and is another torrent.
- `Verif.C74_trackers_violated`: A tracker beside an empty list of trackers: after saving and reading the torrent has a tracker that it did not have.
- `Verif.C75_attribute_violated`: C75 fails: the value of an element with an attribute is the value of the attribute.
- `Verif.C75_empty_violated`: C75 fails: looking for the value of an empty element reads past the elements.
- `Verif.C75_text_violated`: C75 fails: text with a `<` is not read back.
- `Verif.C77_pieces_violated`: C77 fails: the answer of the listener follows 14 bytes of padding that were still in flight. In one piece the initiator finishes the handshake. When the padding arrives by itself, the key stream is advanced for the zeros it looks for, and when the answer arrives it looks for the wrong bytes: the same bytes in two pieces are never understood.
- `Verif.C77_plain_violated`: C77 fails: a peer that offers plain text only gets the answer that plain text is chosen, but the listener goes on to decrypt what it receives: the byte 0 is taken for 18.
- `Verif.C78_length_violated`: A piece length of 2^32 makes the program divide by zero.
- `Verif.C78_many_files_violated`: A torrent of 9362 or more files in folders: a tracker, then the info dictionary with the files, as torrent programs write it. Reading it writes in front of the memory of the parser: the number of the object is kept in 16 bits, and one less than 0 is used as an index.
- `Verif.C78_name_violated`: A name with a zero: the folder of the files has another name than the torrent.
- `Verif.C79_control_violated`: C79 fails: a relative control URL is not completed, and another version of the service is not used.
- `Verif.C79_empty_violated`: C79 fails: a description with an empty name or without anything behind it makes the program read past the elements.
- `Verif.C79_length_violated`: C79 fails: a description said to be nearly 4 GB long is read behind the end of the memory.
- `Verif.C79_location_violated`: C79 fails: a location that is too short ends the program; for one without a port, a number that was never set is used.
- `Verif.C79_path_violated`: C79 fails: the path is put in capitals.
- `Verif.C79_stop_violated`: C79 fails: of two connections only one is closed at the end; a description on the other one ends the program.
- `Verif.C80_refused_violated`: C80 fails with a router that refuses: the same request is sent again at once, without end.
- `Verif.C80_routers_violated`: C80 fails with two routers: what one of them forwards is taken for a surplus of the other. After every request was granted there are more of them, without end, and the one port that is wished is forwarded by none of them again and again.
- `Verif.C80_waiting_violated`: C80 fails with connections that stay open, which is what the requests ask for: the second port is forwarded, and nothing under way will change it.
- `Verif.C81_addresses_violated`: C81 fails: of the addresses of a host only the first one is tried, however many there are.
- `Verif.C81_quota_violated`: C81 fails: bandwidth that was granted and not used is lost. Here 100 bytes are granted; 1 arrives.
- `Verif.C81_threads_violated`: C81 fails: a write by another thread between the two steps of being connected makes the socket write two messages at once.
- `Verif.C81_time_violated`: C81 fails: there are seconds in which receiving anything ends the program; the next one is in January 2038.
- `Verif.C83_early_violated`: C83 fails: with `require`, what is written before the handshake is over goes out in plain text, in the middle of the handshake.
- `Verif.C83_endless_violated`: C83 fails: a peer that closed the first connection without an answer, and cannot be reached any more, is tried again at once and without end.
- `Verif.C83_lost_violated`: C83 fails: of two messages written before the peer closes the plain connection, only the first one is kept for the encrypted one.
- `Verif.C83_plain_violated`: C83 fails: with `require`, a peer that chooses plain text in its handshake is talked to in plain text.
- `Verif.C84_cut_violated`: C84 fails: a plain handshake that arrives in two pieces, the first one of 20 to 67 bytes, is refused, if what was never set is not the hash of a torrent by chance.
- `Verif.C84_kept_violated`: C84 fails: an encrypted connection for a torrent that does not run is neither handed on nor closed; all that arrives is kept, whatever it is (unless it starts like a handshake).
- `Verif.C84_message_violated`: C84 fails: what the torrent's end of the connection does not use of the message in the handshake, here the first 30 bytes of 68, is lost.
- `Verif.C84_policy_violated`: C84 fails: peers that connect without encryption are served although it is required, and encrypted ones although it is refused.
- `Verif.C85_cut_violated`: C85 fails: a datagram behind another one is cut off where the memory of the socket's owner ends, which had room for all of it.
- `Verif.C85_empty_violated`: C85 fails: a datagram in front of an empty one is handed on with the address of the empty one.
- `Verif.C85_sender_violated`: C85 fails: of datagrams of two senders in the socket, that of the first is handed on with the address of the second.
- `Verif.C86_closed_violated`: C86 fails: a request that was closed sends again; what is answered is not received, its owner is not told of the end.
- `Verif.C86_empty_violated`: C86 fails: behind an empty datagram nothing is read any more, however often the socket says that there is something.
- `Verif.C86_lost_violated`: C86 fails: of two messages written before the socket is connected, the first one is lost and the second one sent twice.
- `Verif.C86_target_violated`: C86 fails: a request to all that was answered by one is sent to that one alone when asked again.
- `Verif.C87_twice_violated`: C87 fails: a request that arrives twice, as it does when the answer is lost, opens two connections; the second one never gets anything, whatever arrives.
- `Verif.C88_again_violated`: C88 is false for the second request: servers end the connection behind the reply, as they were asked to. The stream is kept and does not connect again. The next request is never sent and never ends, whatever happens and however often it is repeated.
- `Verif.C88_cut_violated`: C88 is false for replies that are cut inside a line of the header: reading the first part does not end.
- `Verif.C88_rest_violated`: C88 is false for servers that leave the connection open: what is behind the reply, like the end of the chunks, is not removed and stands in front of the next reply. The same reply is good the first time and fails the second time.
- `Verif.C88_stale_violated`: C88 is false after a reply that was not good: the connection it came over stays open, and when it ends the request that is under way then fails, though its own connection stands. Its answer is then not taken.
- `Verif.C89_again_violated`: C89 is false once the server has ended the connection, as it was asked to: the next request is written to the dead connection and fails. The socket is not closed, so that it cannot be connected again; no request is ever answered again.
- `Verif.C89_multiple_violated`: C89 is false for replies that fill the buffer exactly: they are complete, but the end of the connection that follows is a failure.
- `Verif.C89_part_violated`: C89 is false if the socket takes only a part of the request: the rest is never sent.
- `Verif.C89_port_violated`: C89 is false for trackers at another port than that of HTTPS: the port of the URL is not used.
- `Verif.C89_short_violated`: C89 is false for replies of which a part arrives that is shorter than the buffer: reading stops there. If the reply is not complete the request never ends, even if the rest arrives or the connection ends.
- `Verif.C90_same_violated`: Two files of a torrent at the same place: one overwrites the other.
- `Verif.C90_up_violated`: A torrent file with a path of "..": its file lies above the location of the torrent. Likewise with a separator in a name.
- `Verif.C91_new_violated`: Moving to a folder that is not there: it is made and the answer is success, but the files stay where they were.
- `Verif.C91_single_violated`: A torrent of one file is never moved to a folder that has no such file yet: the answer is that the place is taken (the size of a file that is not there is all ones).
- `Verif.C92_foreign_violated`: Every file in the folder of the torrent is deleted, whether it is one of the torrent's or not.
- `Verif.C92_left_violated`: The folder of a torrent of one file stays.
- `Verif.C92_noname_violated`: Deleting a torrent without a name that has more files deletes everything at its location.
- `Verif.C92_up_violated`: Deleting a torrent by the name of "..", which is read from its file, deletes what is beside its location.
- `Verif.C93_folder_violated`: A folder at the place of a file is taken for a file that is large enough.
- `Verif.C93_mount_violated`: The room is that of the root: where another disk is at the location, the answer is wrong both ways.
- `Verif.C94_empty_violated`: An empty file that is selected makes the files around it need room.
- `Verif.C94_last_violated`: An empty file behind the end of the last piece: a piece that does not exist is looked up, whatever is selected.
- `Verif.C95_deselected_violated`: C95 fails: a piece completed between deselection and the refresh of the requests counts as received, and a peer that is connected is never told of it, however often the timer fires.
- `Verif.C96_below_violated`: C96 fails: with one connection more than allowed five are closed, though then fewer remain than allowed; whatever the sorts do.
- `Verif.C97_wraps_violated`: C97 fails: whoever asks for piece 2^18 gets the bytes of piece 0 as those of piece 2^18, though the metadata has one piece only.
- `Verif.C98_liar_violated`: C98 fails: if the first peer tells a wrong size, the download never finishes, whatever the others, who have the metadata, answer, and whether it leaves or not.
- `Verif.C99_count_violated`: **Violated**: what the source returns for addresses is the number of peers it has ever found, and the query adds these up. Three answers of ten new peers each count as sixty, and after that one known address is enough to end a search that found nothing.
- `Verif.C99_old_violated`: **Violated**: a query that was given up still reports its end under the hash. The torrent is stopped and started while the first query runs; its end ends the second search: the source says connected, the second query goes on, and what it finds is dropped.
