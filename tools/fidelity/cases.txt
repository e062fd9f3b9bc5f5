CounterExample91	717565727920676574446f674e616d65207b0a090909646f67207b0a090909096e616d650a09090909636f6c6f720a0909097d0a09097d0a0a0909657874656e64207479706520446f67207b0a090909636f6c6f723a20537472696e670a09097d	7b226d657373616765223a22556e646566696e6564206669656c6420747970653a20446f67206e616d653a20636f6c6f72222c226c6f636174696f6e73223a5b7b226c696e65223a342c22636f6c756d6e223a357d5d7d|7b226d657373616765223a22556e6578706563746564207479706520646566696e6974696f6e222c226c6f636174696f6e73223a5b7b226c696e65223a382c22636f6c756d6e223a337d5d7d	2	0|1
Example92	717565727920676574446f674e616d65207b0a090909646f67207b0a090909096e616d650a0909097d0a09097d0a0a09097175657279206765744f776e65724e616d65207b0a090909646f67207b0a090909096f776e6572207b0a09090909096e616d650a090909097d0a0909097d0a09097d		0	
CounterExample93	7175657279206765744e616d65207b0a090909646f67207b0a090909096e616d650a0909097d0a09097d0a0a09097175657279206765744e616d65207b0a090909646f67207b0a090909096f776e6572207b0a09090909096e616d650a090909097d0a0909097d0a09097d	7b226d657373616765223a224475706c6963617465206f7065726174696f6e206e616d653a206765744e616d65222c226c6f636174696f6e73223a5b7b226c696e65223a372c22636f6c756d6e223a337d5d7d	1	0
CounterExample94	717565727920646f674f7065726174696f6e207b0a090909646f67207b0a090909096e616d650a0909097d0a09097d0a0a09096d75746174696f6e20646f674f7065726174696f6e207b0a0909096d7574617465446f67207b0a0909090969640a0909097d0a09097d	7b226d657373616765223a224475706c6963617465206f7065726174696f6e206e616d653a20646f674f7065726174696f6e222c226c6f636174696f6e73223a5b7b226c696e65223a372c22636f6c756d6e223a337d5d7d	1	0
Example95	7b0a090909646f67207b0a090909096e616d650a0909097d0a09097d		0	
CounterExample96	7b0a090909646f67207b0a090909096e616d650a0909097d0a09097d0a0a09097175657279206765744e616d65207b0a090909646f67207b0a090909096f776e6572207b0a09090909096e616d650a090909097d0a0909097d0a09097d	7b226d657373616765223a22416e6f6e796d6f7573206f7065726174696f6e206e6f7420616c6f6e65222c226c6f636174696f6e73223a5b7b226c696e65223a312c22636f6c756d6e223a317d5d7d	1	0
Example97	737562736372697074696f6e20737562207b0a0909096e65774d657373616765207b0a09090909626f64790a0909090973656e6465720a0909097d0a09097d		0	
Example98	737562736372697074696f6e20737562207b0a0909092e2e2e6e65774d6573736167654669656c64730a09097d0a0a0909667261676d656e74206e65774d6573736167654669656c6473206f6e20537562736372697074696f6e207b0a0909096e65774d657373616765207b0a09090909626f64790a0909090973656e6465720a0909097d0a09097d		0	
CounterExample99	737562736372697074696f6e20737562207b0a0909096e65774d657373616765207b0a09090909626f64790a0909090973656e6465720a0909097d0a090909646973616c6c6f7765645365636f6e64526f6f744669656c640a09097d	7b226d657373616765223a22537562736372697074696f6e2077697468206d6f7265207468616e206f6e6520726f6f74206669656c64206e616d653a20737562222c226c6f636174696f6e73223a5b7b226c696e65223a312c22636f6c756d6e223a317d5d7d	1	0
CounterExample100	737562736372697074696f6e20737562207b0a0909092e2e2e6d756c7469706c65537562736372697074696f6e730a09097d0a0a0909667261676d656e74206d756c7469706c65537562736372697074696f6e73206f6e20537562736372697074696f6e207b0a0909096e65774d657373616765207b0a09090909626f64790a0909090973656e6465720a0909097d0a090909646973616c6c6f7765645365636f6e64526f6f744669656c640a09097d	7b226d657373616765223a22537562736372697074696f6e2077697468206d6f7265207468616e206f6e6520726f6f74206669656c64206e616d653a20737562222c226c6f636174696f6e73223a5b7b226c696e65223a312c22636f6c756d6e223a317d5d7d	1	0
CounterExample101	737562736372697074696f6e20737562207b0a0909096e65774d657373616765207b0a09090909626f64790a0909090973656e6465720a0909097d0a0909095f5f747970656e616d650a09097d	7b226d657373616765223a22537562736372697074696f6e2077697468206d6f7265207468616e206f6e6520726f6f74206669656c64206e616d653a20737562222c226c6f636174696f6e73223a5b7b226c696e65223a312c22636f6c756d6e223a317d5d7d	1	0
CounterExample102	667261676d656e74206669656c644e6f74446566696e6564206f6e20446f67207b0a0909096d656f77566f6c756d650a09097d0a0a0909667261676d656e7420616c69617365644c79696e674669656c645461726765744e6f74446566696e6564206f6e20446f67207b0a0909096261726b566f6c756d653a206b6177566f6c756d650a09097d	7b226d657373616765223a22556e646566696e6564206669656c6420747970653a20446f67206e616d653a206d656f77566f6c756d65222c226c6f636174696f6e73223a5b7b226c696e65223a322c22636f6c756d6e223a347d5d7d|7b226d657373616765223a22556e646566696e6564206669656c6420747970653a20446f67206e616d653a206b6177566f6c756d65222c226c6f636174696f6e73223a5b7b226c696e65223a362c22636f6c756d6e223a347d5d7d	4	0|1
Example103	667261676d656e7420696e746572666163654669656c6453656c656374696f6e206f6e20506574207b0a0909096e616d650a09097d0a0a09097175657279207b0a090909646f67207b0a090909092e2e2e696e746572666163654669656c6453656c656374696f6e0a0909097d0a09097d		0	
CounterExample104	667261676d656e7420646566696e65644f6e496d706c656d656e746f72734275744e6f74496e74657266616365206f6e20506574207b0a0909096e69636b6e616d650a09097d	7b226d657373616765223a22556e646566696e6564206669656c6420747970653a20506574206e616d653a206e69636b6e616d65222c226c6f636174696f6e73223a5b7b226c696e65223a322c22636f6c756d6e223a347d5d7d	2	0
Example105	667261676d656e7420696e4469726563744669656c6453656c656374696f6e4f6e556e696f6e206f6e204361744f72446f67207b0a0909095f5f747970656e616d650a0909092e2e2e206f6e20506574207b0a090909096e616d650a0909097d0a0909092e2e2e206f6e20446f67207b0a090909096261726b566f6c756d650a0909097d0a09097d0a0a09097175657279207b0a090909646f67207b0a090909092e2e2e696e4469726563744669656c6453656c656374696f6e4f6e556e696f6e0a0909097d0a09097d		0	
CounterExample106	667261676d656e74206469726563744669656c6453656c656374696f6e4f6e556e696f6e206f6e204361744f72446f67207b0a0909096e616d650a0909096261726b566f6c756d650a09097d	7b226d657373616765223a224669656c64206f6e20756e696f6e20747970653a204361744f72446f67206e616d653a206e616d65222c226c6f636174696f6e73223a5b7b226c696e65223a322c22636f6c756d6e223a347d5d7d|7b226d657373616765223a224669656c64206f6e20756e696f6e20747970653a204361744f72446f67206e616d653a206261726b566f6c756d65222c226c6f636174696f6e73223a5b7b226c696e65223a332c22636f6c756d6e223a347d5d7d	3	0|1
Example107	667261676d656e74206d657267654964656e746963616c4669656c6473206f6e20446f67207b0a0909096e616d650a0909096e616d650a09097d0a0a0909667261676d656e74206d657267654964656e746963616c416c6961736573416e644669656c6473206f6e20446f67207b0a0909096f746865724e616d653a206e616d650a0909096f746865724e616d653a206e616d650a09097d0a0a09097175657279207b0a090909646f67207b0a090909092e2e2e6d657267654964656e746963616c4669656c64730a090909092e2e2e6d657267654964656e746963616c416c6961736573416e644669656c64730a0909097d0a09097d		0	
CounterExample108	667261676d656e7420636f6e666c696374696e6742656361757365416c696173206f6e20446f67207b0a0909096e616d653a206e69636b6e616d650a0909096e616d650a09097d	7b226d657373616765223a22436f6e666c696374696e67206669656c6420747970653a20446f67206e616d653a206e616d65222c226c6f636174696f6e73223a5b7b226c696e65223a332c22636f6c756d6e223a347d5d7d	2	0
Example109	667261676d656e74206d657267654964656e746963616c4669656c6473576974684964656e746963616c41726773206f6e20446f67207b0a090909646f65734b6e6f77436f6d6d616e6428646f67436f6d6d616e643a20534954290a090909646f65734b6e6f77436f6d6d616e6428646f67436f6d6d616e643a20534954290a09097d0a0a0909667261676d656e74206d657267654964656e746963616c4669656c6473576974684964656e746963616c56616c756573206f6e20446f67207b0a090909646f65734b6e6f77436f6d6d616e6428646f67436f6d6d616e643a2024646f67436f6d6d616e64290a090909646f65734b6e6f77436f6d6d616e6428646f67436f6d6d616e643a2024646f67436f6d6d616e64290a09097d0a0a09097175657279207131207b0a090909646f67207b0a090909092e2e2e6d657267654964656e746963616c4669656c6473576974684964656e746963616c417267730a0909097d0a09097d0a0a09097175657279207132202824646f67436f6d6d616e643a20446f67436f6d6d616e642129207b0a090909646f67207b0a090909092e2e2e6d657267654964656e746963616c4669656c6473576974684964656e746963616c56616c7565730a0909097d0a09097d		0	
CounterExample110	667261676d656e7420636f6e666c696374696e67417267734f6e56616c756573206f6e20446f67207b0a090909646f65734b6e6f77436f6d6d616e6428646f67436f6d6d616e643a20534954290a090909646f65734b6e6f77436f6d6d616e6428646f67436f6d6d616e643a204845454c290a09097d0a0a0909667261676d656e7420636f6e666c696374696e674172677356616c7565416e64566172206f6e20446f67207b0a090909646f65734b6e6f77436f6d6d616e6428646f67436f6d6d616e643a20534954290a090909646f65734b6e6f77436f6d6d616e6428646f67436f6d6d616e643a2024646f67436f6d6d616e64290a09097d0a0a0909667261676d656e7420636f6e666c696374696e67417267735769746856617273206f6e20446f67207b0a090909646f65734b6e6f77436f6d6d616e6428646f67436f6d6d616e643a20247661724f6e65290a090909646f65734b6e6f77436f6d6d616e6428646f67436f6d6d616e643a202476617254776f290a09097d0a0a0909667261676d656e7420646966666572696e6741726773206f6e20446f67207b0a090909646f65734b6e6f77436f6d6d616e6428646f67436f6d6d616e643a20534954290a090909646f65734b6e6f77436f6d6d616e640a09097d	7b226d657373616765223a22436f6e666c696374696e67206669656c6420747970653a20446f67206e616d653a20646f65734b6e6f77436f6d6d616e64222c226c6f636174696f6e73223a5b7b226c696e65223a332c22636f6c756d6e223a347d5d7d|7b226d657373616765223a22436f6e666c696374696e67206669656c6420747970653a20446f67206e616d653a20646f65734b6e6f77436f6d6d616e64222c226c6f636174696f6e73223a5b7b226c696e65223a382c22636f6c756d6e223a347d5d7d|7b226d657373616765223a22436f6e666c696374696e67206669656c6420747970653a20446f67206e616d653a20646f65734b6e6f77436f6d6d616e64222c226c6f636174696f6e73223a5b7b226c696e65223a31332c22636f6c756d6e223a347d5d7d|7b226d657373616765223a22436f6e666c696374696e67206669656c6420747970653a20446f67206e616d653a20646f65734b6e6f77436f6d6d616e64222c226c6f636174696f6e73223a5b7b226c696e65223a31382c22636f6c756d6e223a347d5d7d	9	0|1|2|3
Example111	667261676d656e742073616665446966666572696e674669656c6473206f6e20506574207b0a0909092e2e2e206f6e20446f67207b0a09090909766f6c756d653a206261726b566f6c756d650a0909097d0a0909092e2e2e206f6e20436174207b0a09090909766f6c756d653a206d656f77566f6c756d650a0909097d0a09097d0a0a0909667261676d656e742073616665446966666572696e6741726773206f6e20506574207b0a0909092e2e2e206f6e20446f67207b0a09090909646f65734b6e6f77436f6d6d616e6428646f67436f6d6d616e643a20534954290a0909097d0a0909092e2e2e206f6e20436174207b0a09090909646f65734b6e6f77436f6d6d616e6428636174436f6d6d616e643a204a554d50290a0909097d0a09097d0a0a09097175657279207b0a090909646f67207b0a090909092e2e2e73616665446966666572696e674669656c64730a090909092e2e2e73616665446966666572696e67417267730a0909097d0a09097d		0	
CounterExample112	667261676d656e7420636f6e666c696374696e67446966666572696e67526573706f6e736573206f6e20506574207b0a0909092e2e2e206f6e20446f67207b0a09090909736f6d6556616c75653a206e69636b6e616d650a0909097d0a0909092e2e2e206f6e20436174207b0a09090909736f6d6556616c75653a206d656f77566f6c756d650a0909097d0a09097d	7b226d657373616765223a22436f6e666c696374696e67206669656c6420747970653a20436174206e616d653a206d656f77566f6c756d65222c226c6f636174696f6e73223a5b7b226c696e65223a362c22636f6c756d6e223a357d5d7d	2	0
Example113	667261676d656e74207363616c617253656c656374696f6e206f6e20446f67207b0a0909096261726b566f6c756d650a09097d0a0a09097175657279207b0a090909646f67207b0a090909092e2e2e7363616c617253656c656374696f6e0a0909097d0a09097d		0	
CounterExample114	667261676d656e74207363616c617253656c656374696f6e734e6f74416c6c6f7765644f6e496e74206f6e20446f67207b0a0909096261726b566f6c756d65207b0a0909090973696e63655768656e0a0909097d0a09097d	7b226d657373616765223a224669656c64206f6e207363616c617220747970653a20496e74206e616d653a2073696e63655768656e222c226c6f636174696f6e73223a5b7b226c696e65223a332c22636f6c756d6e223a357d5d7d	2	0
Example115	7175657279207b0a09090968756d616e207b0a090909096e616d650a0909097d0a090909706574207b0a090909096e616d650a0909097d0a0909096361744f72446f67207b0a090909092e2e2e206f6e20436174207b0a0909090909766f6c756d653a206d656f77566f6c756d650a090909097d0a090909092e2e2e206f6e20446f67207b0a0909090909766f6c756d653a206261726b566f6c756d650a090909097d0a0909097d0a09097d		0	
CounterExample116	71756572792064697265637451756572794f6e4f626a656374576974686f75745375624669656c6473207b0a09090968756d616e0a09097d0a0a090971756572792064697265637451756572794f6e496e74657266616365576974686f75745375624669656c6473207b0a0909097065740a09097d0a0a090971756572792064697265637451756572794f6e556e696f6e576974686f75745375624669656c6473207b0a0909096361744f72446f670a09097d	7b226d657373616765223a224d697373696e67206669656c6473206f6e206e6f6e2d7363616c617220747970653a2048756d616e222c226c6f636174696f6e73223a5b7b226c696e65223a322c22636f6c756d6e223a347d5d7d|7b226d657373616765223a224d697373696e67206669656c6473206f6e206e6f6e2d7363616c617220747970653a20506574222c226c6f636174696f6e73223a5b7b226c696e65223a362c22636f6c756d6e223a347d5d7d|7b226d657373616765223a224d697373696e67206669656c6473206f6e206e6f6e2d7363616c617220747970653a204361744f72446f67222c226c6f636174696f6e73223a5b7b226c696e65223a31302c22636f6c756d6e223a347d5d7d	3	0|1|2
Example117	667261676d656e74206172674f6e5265717569726564417267206f6e20446f67207b0a090909646f65734b6e6f77436f6d6d616e6428646f67436f6d6d616e643a20534954290a09097d0a0a0909667261676d656e74206172674f6e4f7074696f6e616c206f6e20446f67207b0a0909096973486f757365747261696e65642861744f74686572486f6d65733a2074727565292040696e636c7564652869663a2074727565290a09097d0a0a09097175657279207b0a090909646f67207b0a090909092e2e2e6172674f6e52657175697265644172670a090909092e2e2e6172674f6e4f7074696f6e616c0a0909097d0a09097d		0	
CounterExample118	667261676d656e7420696e76616c69644172674e616d65206f6e20446f67207b0a090909646f65734b6e6f77436f6d6d616e6428636f6d6d616e643a20434c45414e5f55505f484f555345290a09097d	7b226d657373616765223a22556e646566696e656420617267756d656e7420747970653a20446f67206669656c643a20646f65734b6e6f77436f6d6d616e64206e616d653a20636f6d6d616e64222c226c6f636174696f6e73223a5b7b226c696e65223a322c22636f6c756d6e223a32307d5d7d	3	0
CounterExample119	667261676d656e7420696e76616c69644172674e616d65206f6e20446f67207b0a0909096973486f757365747261696e65642861744f74686572486f6d65733a2074727565292040696e636c75646528756e6c6573733a2066616c7365290a09097d	7b226d657373616765223a22556e646566696e656420617267756d656e74206469726563746976653a20696e636c756465206e616d653a20756e6c657373222c226c6f636174696f6e73223a5b7b226c696e65223a322c22636f6c756d6e223a34387d5d7d	3	0
Example120	7175657279207b0a090909617267756d656e7473207b0a090909096d756c7469706c655265717328783a20312c20793a2032290a0909097d0a09097d		0	
Example121	667261676d656e74206d756c7469706c6541726773206f6e20417267756d656e7473207b0a0909096d756c7469706c655265717328783a20312c20793a2032290a09097d0a0a0909667261676d656e74206d756c7469706c6541726773526576657273654f72646572206f6e20417267756d656e7473207b0a0909096d756c7469706c655265717328793a20312c20783a2032290a09097d0a0a09097175657279207131207b0a090909617267756d656e7473207b0a090909092e2e2e6d756c7469706c65417267730a0909097d0a09097d0a0a09097175657279207132207b0a090909617267756d656e7473207b0a090909092e2e2e6d756c7469706c6541726773526576657273654f726465720a0909097d0a09097d		0	
Example122	667261676d656e7420676f6f64426f6f6c65616e417267206f6e20417267756d656e7473207b0a090909626f6f6c65616e4172674669656c6428626f6f6c65616e4172673a2074727565290a09097d0a0a0909667261676d656e7420676f6f644e6f6e4e756c6c417267206f6e20417267756d656e7473207b0a0909096e6f6e4e756c6c426f6f6c65616e4172674669656c64286e6f6e4e756c6c426f6f6c65616e4172673a2074727565290a09097d0a0a09097175657279207b0a090909617267756d656e7473207b0a090909092e2e2e676f6f64426f6f6c65616e4172670a090909092e2e2e676f6f644e6f6e4e756c6c4172670a0909097d0a09097d		0	
Example123	667261676d656e7420676f6f64426f6f6c65616e41726744656661756c74206f6e20417267756d656e7473207b0a090909626f6f6c65616e4172674669656c640a09097d0a0a09097175657279207b0a090909617267756d656e7473207b0a090909092e2e2e676f6f64426f6f6c65616e41726744656661756c740a0909097d0a09097d		0	
CounterExample124	667261676d656e74206d697373696e675265717569726564417267206f6e20417267756d656e7473207b0a0909096e6f6e4e756c6c426f6f6c65616e4172674669656c640a09097d	7b226d657373616765223a224d697373696e6720617267756d656e7420747970653a20417267756d656e7473206669656c643a206e6f6e4e756c6c426f6f6c65616e4172674669656c64206e616d653a206e6f6e4e756c6c426f6f6c65616e417267222c226c6f636174696f6e73223a5b7b226c696e65223a322c22636f6c756d6e223a347d5d7d	2	0
CounterExample125	667261676d656e74206d697373696e675265717569726564417267206f6e20417267756d656e7473207b0a0909096e6f6e4e756c6c426f6f6c65616e4172674669656c64286e6f6e4e756c6c426f6f6c65616e4172673a206e756c6c290a09097d	7b226d657373616765223a225265717569726564206e6f6e2d6e756c6c20617267756d656e7420747970653a20417267756d656e7473206669656c643a206e6f6e4e756c6c426f6f6c65616e4172674669656c64206e616d653a206e6f6e4e756c6c426f6f6c65616e417267222c226c6f636174696f6e73223a5b7b226c696e65223a322c22636f6c756d6e223a347d5d7d	2	0
Example126	7b0a090909646f67207b0a090909092e2e2e667261676d656e744f6e650a090909092e2e2e667261676d656e7454776f0a0909097d0a09097d0a0a0909667261676d656e7420667261676d656e744f6e65206f6e20446f67207b0a0909096e616d650a09097d0a0a0909667261676d656e7420667261676d656e7454776f206f6e20446f67207b0a0909096f776e6572207b0a090909096e616d650a0909097d0a09097d		0	
CounterExample127	7b0a090909646f67207b0a090909092e2e2e667261676d656e744f6e650a0909097d0a09097d0a0a0909667261676d656e7420667261676d656e744f6e65206f6e20446f67207b0a0909096e616d650a09097d0a0a0909667261676d656e7420667261676d656e744f6e65206f6e20446f67207b0a0909096f776e6572207b0a090909096e616d650a0909097d0a09097d	7b226d657373616765223a224475706c696361746520667261676d656e74206e616d653a20667261676d656e744f6e65222c226c6f636174696f6e73223a5b7b226c696e65223a31312c22636f6c756d6e223a337d5d7d	1	0
Example128	667261676d656e7420636f727265637454797065206f6e20446f67207b0a0909096e616d650a09097d0a0a0909667261676d656e7420696e6c696e65467261676d656e74206f6e20446f67207b0a0909092e2e2e206f6e20446f67207b0a090909096e616d650a0909097d0a09097d0a0a0909667261676d656e7420696e6c696e65467261676d656e7432206f6e20446f67207b0a0909092e2e2e2040696e636c7564652869663a207472756529207b0a090909096e616d650a0909097d0a09097d0a0a09097175657279207b0a090909646f67207b0a090909092e2e2e636f7272656374547970650a090909092e2e2e696e6c696e65467261676d656e740a090909092e2e2e696e6c696e65467261676d656e74320a0909097d0a09097d		0	
CounterExample129	667261676d656e74206e6f744f6e4578697374696e6754797065206f6e204e6f74496e536368656d61207b0a0909096e616d650a09097d0a0a0909667261676d656e7420696e6c696e654e6f744578697374696e6754797065206f6e20446f67207b0a0909092e2e2e206f6e204e6f74496e536368656d61207b0a090909096e616d650a0909097d0a09097d	7b226d657373616765223a22556e646566696e6564207461726765742074797065206f6e20667261676d656e7420646566696e6974696f6e3a206e6f744f6e4578697374696e6754797065206e616d653a204e6f74496e536368656d61222c226c6f636174696f6e73223a5b7b226c696e65223a312c22636f6c756d6e223a32387d5d7d|7b226d657373616765223a22556e646566696e6564207461726765742074797065206f6e20696e6c696e6520667261676d656e74206e616d653a204e6f74496e536368656d61222c226c6f636174696f6e73223a5b7b226c696e65223a362c22636f6c756d6e223a387d5d7d	4	0|1
Example130	667261676d656e7420667261674f6e4f626a656374206f6e20446f67207b0a0909096e616d650a09097d0a0a0909667261676d656e7420667261674f6e496e74657266616365206f6e20506574207b0a0909096e616d650a09097d0a0a0909667261676d656e7420667261674f6e556e696f6e206f6e204361744f72446f67207b0a0909092e2e2e206f6e20446f67207b0a090909096e616d650a0909097d0a09097d0a0a09097175657279207b0a090909646f67207b0a090909092e2e2e667261674f6e4f626a6563740a090909092e2e2e667261674f6e496e746572666163650a090909092e2e2e667261674f6e556e696f6e0a0909097d0a09097d		0	
CounterExample131	667261676d656e7420667261674f6e5363616c6172206f6e20496e74207b0a090909736f6d657468696e670a09097d0a0a0909667261676d656e7420696e6c696e65467261674f6e5363616c6172206f6e20446f67207b0a0909092e2e2e206f6e20426f6f6c65616e207b0a09090909736f6d657468696e67456c73650a0909097d0a09097d	7b226d657373616765223a225363616c6172207461726765742074797065206f6e20667261676d656e7420646566696e6974696f6e3a20667261674f6e5363616c6172206e616d653a20496e74222c226c6f636174696f6e73223a5b7b226c696e65223a312c22636f6c756d6e223a32337d5d7d|7b226d657373616765223a225363616c6172207461726765742074797065206f6e20696e6c696e6520667261676d656e74206e616d653a20426f6f6c65616e222c226c6f636174696f6e73223a5b7b226c696e65223a362c22636f6c756d6e223a387d5d7d	4	0|1
CounterExample132	667261676d656e74206e616d65467261676d656e74206f6e20446f67207b202320756e757365640a0909096e616d650a09097d0a0a09097b0a090909646f67207b0a090909096e616d650a0909097d0a09097d	7b226d657373616765223a22556e7573656420667261676d656e7420646566696e6974696f6e206e616d653a206e616d65467261676d656e74222c226c6f636174696f6e73223a5b7b226c696e65223a312c22636f6c756d6e223a317d5d7d	1	0
CounterExample133	7b0a090909646f67207b0a090909092e2e2e756e646566696e6564467261676d656e740a0909097d0a09097d	7b226d657373616765223a22556e646566696e656420667261676d656e7420737072656164206e616d653a20756e646566696e6564467261676d656e74222c226c6f636174696f6e73223a5b7b226c696e65223a332c22636f6c756d6e223a387d5d7d	2	0
CounterExample134	7b0a090909646f67207b0a090909092e2e2e6e616d65467261676d656e740a0909097d0a09097d0a0a0909667261676d656e74206e616d65467261676d656e74206f6e20446f67207b0a0909096e616d650a0909092e2e2e6261726b566f6c756d65467261676d656e740a09097d0a0a0909667261676d656e74206261726b566f6c756d65467261676d656e74206f6e20446f67207b0a0909096261726b566f6c756d650a0909092e2e2e6e616d65467261676d656e740a09097d	7b226d657373616765223a224379636c696320667261676d656e7420737072656164206e616d653a206e616d65467261676d656e74222c226c6f636174696f6e73223a5b7b226c696e65223a31342c22636f6c756d6e223a377d5d7d|7b226d657373616765223a224379636c696320667261676d656e7420737072656164206e616d653a206261726b566f6c756d65467261676d656e74222c226c6f636174696f6e73223a5b7b226c696e65223a392c22636f6c756d6e223a377d5d7d	2	0|1
Example135	7b0a090909646f67207b0a090909096e616d650a090909096261726b566f6c756d650a090909096e616d650a090909096261726b566f6c756d650a090909096e616d650a090909096261726b566f6c756d650a090909096e616d650a090909092320666f72657665722e2e2e0a0909097d0a09097d		0	
CounterExample136	7b0a090909646f67207b0a090909092e2e2e646f67467261676d656e740a0909097d0a09097d0a0a0909667261676d656e7420646f67467261676d656e74206f6e20446f67207b0a0909096e616d650a0909096f776e6572207b0a090909096e616d650a090909092e2e2e6f776e6572467261676d656e740a0909097d0a09097d0a0a0909667261676d656e74206f776e6572467261676d656e74206f6e2048756d616e207b0a0909096e616d650a09090970657473207b0a090909096e616d650a090909092e2e2e646f67467261676d656e740a0909097d0a09097d	7b226d657373616765223a224379636c696320667261676d656e7420737072656164206e616d653a20646f67467261676d656e74222c226c6f636174696f6e73223a5b7b226c696e65223a31392c22636f6c756d6e223a387d5d7d|7b226d657373616765223a224379636c696320667261676d656e7420737072656164206e616d653a206f776e6572467261676d656e74222c226c6f636174696f6e73223a5b7b226c696e65223a31312c22636f6c756d6e223a387d5d7d	2	0|1
Example137	667261676d656e7420646f67467261676d656e74206f6e20446f67207b0a0909092e2e2e206f6e20446f67207b0a090909096261726b566f6c756d650a0909097d0a09097d0a0a09097175657279207b0a090909646f67207b0a090909092e2e2e646f67467261676d656e740a0909097d0a09097d		0	
CounterExample138	667261676d656e7420636174496e446f67467261676d656e74496e76616c6964206f6e20446f67207b0a0909092e2e2e206f6e20436174207b0a090909096d656f77566f6c756d650a0909097d0a09097d	7b226d657373616765223a22496e636f6d70617469626c65207461726765742074797065206f6e20696e6c696e6520667261676d656e74206e616d653a20436174222c226c6f636174696f6e73223a5b7b226c696e65223a322c22636f6c756d6e223a387d5d7d	2	0
Example139	667261676d656e74207065744e616d65467261676d656e74206f6e20506574207b0a0909096e616d650a09097d0a0a0909667261676d656e7420696e7465726661636557697468696e4f626a656374467261676d656e74206f6e20446f67207b0a0909092e2e2e7065744e616d65467261676d656e740a09097d0a0a09097175657279207b0a090909646f67207b0a090909092e2e2e696e7465726661636557697468696e4f626a656374467261676d656e740a0909097d0a09097d		0	
Example140	667261676d656e74206361744f72446f674e616d65467261676d656e74206f6e204361744f72446f67207b0a0909092e2e2e206f6e20436174207b0a090909096d656f77566f6c756d650a0909097d0a09097d0a0a0909667261676d656e7420756e696f6e576974684f626a656374467261676d656e74206f6e20446f67207b0a0909092e2e2e6361744f72446f674e616d65467261676d656e740a09097d0a0a09097175657279207b0a090909646f67207b0a090909092e2e2e756e696f6e576974684f626a656374467261676d656e740a0909097d0a09097d		0	
Example141	667261676d656e7420706574467261676d656e74206f6e20506574207b0a0909096e616d650a0909092e2e2e206f6e20446f67207b0a090909096261726b566f6c756d650a0909097d0a09097d0a0a0909667261676d656e74206361744f72446f67467261676d656e74206f6e204361744f72446f67207b0a0909092e2e2e206f6e20436174207b0a090909096d656f77566f6c756d650a0909097d0a09097d0a0a09097175657279207b0a090909646f67207b0a090909092e2e2e706574467261676d656e740a090909092e2e2e6361744f72446f67467261676d656e740a0909097d0a09097d		0	
CounterExample142	667261676d656e742073656e7469656e74467261676d656e74206f6e2053656e7469656e74207b0a0909092e2e2e206f6e20446f67207b0a090909096261726b566f6c756d650a0909097d0a09097d0a0a0909667261676d656e742068756d616e4f72416c69656e467261676d656e74206f6e2048756d616e4f72416c69656e207b0a0909092e2e2e206f6e20436174207b0a090909096d656f77566f6c756d650a0909097d0a09097d	7b226d657373616765223a22496e636f6d70617469626c65207461726765742074797065206f6e20696e6c696e6520667261676d656e74206e616d653a20446f67222c226c6f636174696f6e73223a5b7b226c696e65223a322c22636f6c756d6e223a387d5d7d|7b226d657373616765223a22496e636f6d70617469626c65207461726765742074797065206f6e20696e6c696e6520667261676d656e74206e616d653a20436174222c226c6f636174696f6e73223a5b7b226c696e65223a382c22636f6c756d6e223a387d5d7d	4	0|1
Example143	667261676d656e7420756e696f6e57697468496e74657266616365206f6e20506574207b0a0909092e2e2e646f674f7248756d616e467261676d656e740a09097d0a0a0909667261676d656e7420646f674f7248756d616e467261676d656e74206f6e20446f674f7248756d616e207b0a0909092e2e2e206f6e20446f67207b0a090909096261726b566f6c756d650a0909097d0a09097d0a0a09097175657279207b0a090909646f67207b0a090909092e2e2e756e696f6e57697468496e746572666163650a0909097d0a09097d		0	
CounterExample144	667261676d656e74206e6f6e496e74657273656374696e67496e7465726661636573206f6e20506574207b0a0909092e2e2e73656e7469656e74467261676d656e740a09097d0a0a0909667261676d656e742073656e7469656e74467261676d656e74206f6e2053656e7469656e74207b0a0909096e616d650a09097d	7b226d657373616765223a22496e636f6d70617469626c6520667261676d656e74207370726561642074617267657420747970653a2053656e7469656e74206e616d653a2073656e7469656e74467261676d656e74222c226c6f636174696f6e73223a5b7b226c696e65223a322c22636f6c756d6e223a377d5d7d	3	0
Example145	667261676d656e7420676f6f64426f6f6c65616e417267206f6e20417267756d656e7473207b0a090909626f6f6c65616e4172674669656c6428626f6f6c65616e4172673a2074727565290a09097d0a0a0909667261676d656e7420636f6572636564496e74496e746f466c6f6174417267206f6e20417267756d656e7473207b0a09090923204e6f74653a2054686520696e70757420636f657263696f6e2072756c657320666f7220466c6f617420616c6c6f7720496e74206c69746572616c732e0a090909666c6f61744172674669656c6428666c6f61744172673a20313233290a09097d0a0a0909717565727920676f6f64436f6d706c657844656661756c7456616c756528247365617263683a20436f6d706c6578496e707574203d207b206e616d653a20224669646f22207d29207b0a09090966696e64446f6728636f6d706c65783a202473656172636829207b0a090909096e616d650a0909097d0a0a090909617267756d656e7473207b0a090909092e2e2e676f6f64426f6f6c65616e4172670a090909092e2e2e636f6572636564496e74496e746f466c6f61744172670a0909097d0a09097d		0	
CounterExample146	667261676d656e7420737472696e67496e746f496e74206f6e20417267756d656e7473207b0a090909696e744172674669656c6428696e744172673a202231323322290a09097d0a0a0909717565727920626164436f6d706c657856616c7565207b0a09090966696e64446f6728636f6d706c65783a207b206e616d653a20313233207d29207b0a090909096e616d650a0909097d0a09097d	7b226d657373616765223a22457870656374656420496e742076616c7565222c226c6f636174696f6e73223a5b7b226c696e65223a322c22636f6c756d6e223a32347d5d7d|7b226d657373616765223a22496e636f6d70617469626c6520617267756d656e7420747970653a20417267756d656e7473206669656c643a20696e744172674669656c64206e616d653a20696e74417267222c226c6f636174696f6e73223a5b7b226c696e65223a322c22636f6c756d6e223a31367d5d7d|7b226d657373616765223a22457870656374656420537472696e672076616c7565222c226c6f636174696f6e73223a5b7b226c696e65223a362c22636f6c756d6e223a32397d5d7d|7b226d657373616765223a22496e636f6d70617469626c6520617267756d656e7420747970653a205175657279206669656c643a2066696e64446f67206e616d653a20636f6d706c6578222c226c6f636174696f6e73223a5b7b226c696e65223a362c22636f6c756d6e223a31327d5d7d	5	0|1|2|3
Example147	7b0a09090966696e64446f6728636f6d706c65783a207b206e616d653a20224669646f22207d29207b0a090909096e616d650a0909097d0a09097d		0	
CounterExample148	7b0a09090966696e64446f6728636f6d706c65783a207b206661766f72697465436f6f6b6965466c61766f723a20224261636f6e22207d29207b0a090909096e616d650a0909097d0a09097d	7b226d657373616765223a22556e646566696e656420496e707574204f626a656374206669656c6420747970653a20436f6d706c6578496e707574206e616d653a206661766f72697465436f6f6b6965466c61766f72222c226c6f636174696f6e73223a5b7b226c696e65223a322c22636f6c756d6e223a34357d5d7d|7b226d657373616765223a22496e636f6d70617469626c6520617267756d656e7420747970653a205175657279206669656c643a2066696e64446f67206e616d653a20636f6d706c6578222c226c6f636174696f6e73223a5b7b226c696e65223a322c22636f6c756d6e223a31327d5d7d	2	0|1
CounterExample149	7b0a09090966696e64446f6728636f6d706c65783a207b206e616d653a20224669646f222c206e616d653a20224669646f22207d29207b0a090909096e616d650a0909097d0a09097d	7b226d657373616765223a22436f6e666c696374696e6720696e707574206669656c64206e616d653a206e616d65222c226c6f636174696f6e73223a5b7b226c696e65223a322c22636f6c756d6e223a33377d5d7d	1	0
CounterExample150	71756572792040736b69702869663a2024666f6f29207b0a090909646f67207b0a090909096e616d650a0909097d0a09097d	7b226d657373616765223a22556e6578706563746564206c6f636174696f6e20666f72206469726563746976653a20736b6970206e616d653a205155455259222c226c6f636174696f6e73223a5b7b226c696e65223a312c22636f6c756d6e223a377d5d7d	1	0
CounterExample151	7175657279202824666f6f3a20426f6f6c65616e203d20747275652c20246261723a20426f6f6c65616e203d2066616c736529207b0a090909646f672040736b69702869663a2024666f6f292040736b69702869663a202462617229207b0a090909096e616d650a0909097d0a09097d	7b226d657373616765223a22436f6e666c696374696e6720646972656374697665206e616d653a20736b6970222c226c6f636174696f6e73223a5b7b226c696e65223a322c22636f6c756d6e223a32347d5d7d	2	0
Example152	7175657279202824666f6f3a20426f6f6c65616e203d20747275652c20246261723a20426f6f6c65616e203d2066616c736529207b0a090909646f672040736b69702869663a2024666f6f29207b0a090909096e616d650a0909097d0a090909646f672040736b69702869663a202462617229207b0a090909096e69636b6e616d650a0909097d0a09097d		0	
CounterExample153	717565727920686f757365547261696e65645175657279282461744f74686572486f6d65733a20426f6f6c65616e2c202461744f74686572486f6d65733a20426f6f6c65616e29207b0a090909646f67207b0a090909096973486f757365747261696e65642861744f74686572486f6d65733a202461744f74686572486f6d6573290a0909097d0a09097d	7b226d657373616765223a22436f6e666c696374696e67207661726961626c65206f7065726174696f6e3a20686f757365547261696e65645175657279206e616d653a2061744f74686572486f6d6573222c226c6f636174696f6e73223a5b7b226c696e65223a312c22636f6c756d6e223a34397d5d7d	1	0
Example154	71756572792041282461744f74686572486f6d65733a20426f6f6c65616e29207b0a0909092e2e2e486f757365547261696e6564467261676d656e740a09097d0a0a090971756572792042282461744f74686572486f6d65733a20426f6f6c65616e29207b0a0909092e2e2e486f757365547261696e6564467261676d656e740a09097d0a0a0909667261676d656e7420486f757365547261696e6564467261676d656e74206f6e205175657279207b0a090909646f67207b0a090909096973486f757365747261696e65642861744f74686572486f6d65733a202461744f74686572486f6d6573290a0909097d0a09097d		0	
Example155	71756572792074616b6573436f6d706c6578496e7075742824636f6d706c6578496e7075743a20436f6d706c6578496e70757429207b0a09090966696e64446f6728636f6d706c65783a2024636f6d706c6578496e70757429207b0a090909096e616d650a0909097d0a09097d		0	
Example156	71756572792074616b6573426f6f6c65616e282461744f74686572486f6d65733a20426f6f6c65616e29207b0a090909646f67207b0a090909096973486f757365747261696e65642861744f74686572486f6d65733a202461744f74686572486f6d6573290a0909097d0a09097d0a0a090971756572792074616b6573436f6d706c6578496e7075742824636f6d706c6578496e7075743a20436f6d706c6578496e70757429207b0a09090966696e64446f6728636f6d706c65783a2024636f6d706c6578496e70757429207b0a090909096e616d650a0909097d0a09097d0a0a090971756572792054616b65734c6973744f66426f6f6c65616e42616e672824626f6f6c65616e733a205b426f6f6c65616e215d29207b0a090909626f6f6c65616e4c69737428626f6f6c65616e4c6973744172673a2024626f6f6c65616e73290a09097d		0	
CounterExample157	71756572792074616b657343617428246361743a2043617429207b0a090909646f67207b0a090909096e616d650a0909097d0a09097d0a0a090971756572792074616b6573446f6742616e672824646f673a20446f672129207b0a090909646f67207b0a090909096e616d650a0909097d0a09097d0a0a090971756572792074616b65734c6973744f665065742824706574733a205b5065745d29207b0a090909646f67207b0a090909096e616d650a0909097d0a09097d0a0a090971756572792074616b65734361744f72446f6728246361744f72446f673a204361744f72446f6729207b0a090909646f67207b0a090909096e616d650a0909097d0a09097d	7b226d657373616765223a22496e76616c6964207661726961626c652074797065206f7065726174696f6e3a2074616b6573436174206e616d653a20636174222c226c6f636174696f6e73223a5b7b226c696e65223a312c22636f6c756d6e223a32327d5d7d|7b226d657373616765223a22496e76616c6964207661726961626c652074797065206f7065726174696f6e3a2074616b6573446f6742616e67206e616d653a20646f67222c226c6f636174696f6e73223a5b7b226c696e65223a372c22636f6c756d6e223a32387d5d7d|7b226d657373616765223a22496e76616c6964207661726961626c652074797065206f7065726174696f6e3a2074616b65734c6973744f66506574206e616d653a2070657473222c226c6f636174696f6e73223a5b7b226c696e65223a31332c22636f6c756d6e223a33317d5d7d|7b226d657373616765223a22496e76616c6964207661726961626c652074797065206f7065726174696f6e3a2074616b65734361744f72446f67206e616d653a206361744f72446f67222c226c6f636174696f6e73223a5b7b226c696e65223a31392c22636f6c756d6e223a33347d5d7d	4	0|1|2|3
Example158	7175657279207661726961626c654973446566696e6564282461744f74686572486f6d65733a20426f6f6c65616e29207b0a090909646f67207b0a090909096973486f757365747261696e65642861744f74686572486f6d65733a202461744f74686572486f6d6573290a0909097d0a09097d		0	
CounterExample159	7175657279207661726961626c6549734e6f74446566696e6564207b0a090909646f67207b0a090909096973486f757365747261696e65642861744f74686572486f6d65733a202461744f74686572486f6d6573290a0909097d0a09097d	7b226d657373616765223a22556e646566696e6564207661726961626c65206e616d653a2061744f74686572486f6d6573222c226c6f636174696f6e73223a5b7b226c696e65223a332c22636f6c756d6e223a33347d5d7d	2	0
Example160	7175657279207661726961626c654973446566696e656455736564496e53696e676c65467261676d656e74282461744f74686572486f6d65733a20426f6f6c65616e29207b0a090909646f67207b0a090909092e2e2e6973486f757365747261696e6564467261676d656e740a0909097d0a09097d0a0a0909667261676d656e74206973486f757365747261696e6564467261676d656e74206f6e20446f67207b0a0909096973486f757365747261696e65642861744f74686572486f6d65733a202461744f74686572486f6d6573290a09097d		0	
CounterExample161	7175657279207661726961626c6549734e6f74446566696e656455736564496e53696e676c65467261676d656e74207b0a090909646f67207b0a090909092e2e2e6973486f757365747261696e6564467261676d656e740a0909097d0a09097d0a0a0909667261676d656e74206973486f757365747261696e6564467261676d656e74206f6e20446f67207b0a0909096973486f757365747261696e65642861744f74686572486f6d65733a202461744f74686572486f6d6573290a09097d	7b226d657373616765223a22556e646566696e6564207661726961626c65206e616d653a2061744f74686572486f6d6573222c226c6f636174696f6e73223a5b7b226c696e65223a382c22636f6c756d6e223a33337d5d7d	2	0
CounterExample162	7175657279207661726961626c6549734e6f74446566696e656455736564496e4e6573746564467261676d656e74207b0a090909646f67207b0a090909092e2e2e6f75746572486f757365747261696e6564467261676d656e740a0909097d0a09097d0a0a0909667261676d656e74206f75746572486f757365747261696e6564467261676d656e74206f6e20446f67207b0a0909092e2e2e6973486f757365747261696e6564467261676d656e740a09097d0a0a0909667261676d656e74206973486f757365747261696e6564467261676d656e74206f6e20446f67207b0a0909096973486f757365747261696e65642861744f74686572486f6d65733a202461744f74686572486f6d6573290a09097d	7b226d657373616765223a22556e646566696e6564207661726961626c65206e616d653a2061744f74686572486f6d6573222c226c6f636174696f6e73223a5b7b226c696e65223a31322c22636f6c756d6e223a33337d5d7d	2	0
Example163	717565727920686f757365747261696e656451756572794f6e65282461744f74686572486f6d65733a20426f6f6c65616e29207b0a090909646f67207b0a090909092e2e2e6973486f757365747261696e6564467261676d656e740a0909097d0a09097d0a0a0909717565727920686f757365747261696e6564517565727954776f282461744f74686572486f6d65733a20426f6f6c65616e29207b0a090909646f67207b0a090909092e2e2e6973486f757365747261696e6564467261676d656e740a0909097d0a09097d0a0a0909667261676d656e74206973486f757365747261696e6564467261676d656e74206f6e20446f67207b0a0909096973486f757365747261696e65642861744f74686572486f6d65733a202461744f74686572486f6d6573290a09097d		0	
CounterExample164	717565727920686f757365747261696e656451756572794f6e65282461744f74686572486f6d65733a20426f6f6c65616e29207b0a090909646f67207b0a090909092e2e2e6973486f757365747261696e6564467261676d656e740a0909097d0a09097d0a0a0909717565727920686f757365747261696e6564517565727954776f4e6f74446566696e6564207b0a090909646f67207b0a090909092e2e2e6973486f757365747261696e6564467261676d656e740a0909097d0a09097d0a0a0909667261676d656e74206973486f757365747261696e6564467261676d656e74206f6e20446f67207b0a0909096973486f757365747261696e65642861744f74686572486f6d65733a202461744f74686572486f6d6573290a09097d	7b226d657373616765223a22556e646566696e6564207661726961626c65206e616d653a2061744f74686572486f6d6573222c226c6f636174696f6e73223a5b7b226c696e65223a31342c22636f6c756d6e223a33337d5d7d	2	0
CounterExample165	7175657279207661726961626c65556e75736564282461744f74686572486f6d65733a20426f6f6c65616e29207b0a090909646f67207b0a090909096973486f757365747261696e65640a0909097d0a09097d	7b226d657373616765223a22556e75736564207661726961626c65206e616d653a2061744f74686572486f6d6573222c226c6f636174696f6e73223a5b7b226c696e65223a312c22636f6c756d6e223a32327d5d7d	1	0
Example166	7175657279207661726961626c6555736564496e467261676d656e74282461744f74686572486f6d65733a20426f6f6c65616e29207b0a090909646f67207b0a090909092e2e2e6973486f757365747261696e6564467261676d656e740a0909097d0a09097d0a0a0909667261676d656e74206973486f757365747261696e6564467261676d656e74206f6e20446f67207b0a0909096973486f757365747261696e65642861744f74686572486f6d65733a202461744f74686572486f6d6573290a09097d		0	
CounterExample167	7175657279207661726961626c654e6f745573656457697468696e467261676d656e74282461744f74686572486f6d65733a20426f6f6c65616e29207b0a090909646f67207b0a090909092e2e2e6973486f757365747261696e6564576974686f75745661726961626c65467261676d656e740a0909097d0a09097d0a0a0909667261676d656e74206973486f757365747261696e6564576974686f75745661726961626c65467261676d656e74206f6e20446f67207b0a0909096973486f757365747261696e65640a09097d	7b226d657373616765223a22556e75736564207661726961626c65206e616d653a2061744f74686572486f6d6573222c226c6f636174696f6e73223a5b7b226c696e65223a312c22636f6c756d6e223a33377d5d7d	1	0
CounterExample168	71756572792071756572795769746855736564566172282461744f74686572486f6d65733a20426f6f6c65616e29207b0a090909646f67207b0a090909092e2e2e6973486f757365747261696e6564467261676d656e740a0909097d0a09097d0a0a09097175657279207175657279576974684578747261566172282461744f74686572486f6d65733a20426f6f6c65616e2c202465787472613a20496e7429207b0a090909646f67207b0a090909092e2e2e6973486f757365747261696e6564467261676d656e740a0909097d0a09097d0a0a0909667261676d656e74206973486f757365747261696e6564467261676d656e74206f6e20446f67207b0a0909096973486f757365747261696e65642861744f74686572486f6d65733a202461744f74686572486f6d6573290a09097d	7b226d657373616765223a22556e75736564207661726961626c65206e616d653a206578747261222c226c6f636174696f6e73223a5b7b226c696e65223a372c22636f6c756d6e223a35317d5d7d	1	0
CounterExample169	717565727920696e7443616e6e6f74476f496e746f426f6f6c65616e2824696e744172673a20496e7429207b0a090909617267756d656e7473207b0a09090909626f6f6c65616e4172674669656c6428626f6f6c65616e4172673a2024696e74417267290a0909097d0a09097d	7b226d657373616765223a22496e636f6d70617469626c65207661726961626c6520747970653a20496e74206e616d653a20426f6f6c65616e222c226c6f636174696f6e73223a5b7b226c696e65223a332c22636f6c756d6e223a33337d5d7d	2	0
CounterExample170	717565727920626f6f6c65616e4c69737443616e6e6f74476f496e746f426f6f6c65616e2824626f6f6c65616e4c6973744172673a205b426f6f6c65616e5d29207b0a090909617267756d656e7473207b0a09090909626f6f6c65616e4172674669656c6428626f6f6c65616e4172673a2024626f6f6c65616e4c697374417267290a0909097d0a09097d	7b226d657373616765223a224578706563746564205363616c6172207661726961626c652074797065222c226c6f636174696f6e73223a5b7b226c696e65223a332c22636f6c756d6e223a33337d5d7d	2	0
CounterExample171	717565727920626f6f6c65616e41726751756572792824626f6f6c65616e4172673a20426f6f6c65616e29207b0a090909617267756d656e7473207b0a090909096e6f6e4e756c6c426f6f6c65616e4172674669656c64286e6f6e4e756c6c426f6f6c65616e4172673a2024626f6f6c65616e417267290a0909097d0a09097d	7b226d657373616765223a224578706563746564204e6f6e2d4e756c6c207661726961626c652074797065222c226c6f636174696f6e73223a5b7b226c696e65223a332c22636f6c756d6e223a34377d5d7d	2	0
Example172	7175657279206e6f6e4e756c6c4c697374546f4c69737428246e6f6e4e756c6c426f6f6c65616e4c6973743a205b426f6f6c65616e5d2129207b0a090909617267756d656e7473207b0a09090909626f6f6c65616e4c6973744172674669656c6428626f6f6c65616e4c6973744172673a20246e6f6e4e756c6c426f6f6c65616e4c697374290a0909097d0a09097d		0	
CounterExample173	7175657279206c697374546f4e6f6e4e756c6c4c6973742824626f6f6c65616e4c6973743a205b426f6f6c65616e5d29207b0a090909617267756d656e7473207b0a090909096e6f6e4e756c6c426f6f6c65616e4c6973744669656c64286e6f6e4e756c6c426f6f6c65616e4c6973744172673a2024626f6f6c65616e4c697374290a0909097d0a09097d	7b226d657373616765223a224578706563746564204e6f6e2d4e756c6c207661726961626c652074797065222c226c6f636174696f6e73223a5b7b226c696e65223a332c22636f6c756d6e223a35327d5d7d	2	0
Example174	717565727920626f6f6c65616e41726751756572795769746844656661756c742824626f6f6c65616e4172673a20426f6f6c65616e29207b0a090909617267756d656e7473207b0a090909096f7074696f6e616c4e6f6e4e756c6c426f6f6c65616e4172674669656c64286f7074696f6e616c426f6f6c65616e4172673a2024626f6f6c65616e417267290a0909097d0a09097d		0	
Example175	717565727920626f6f6c65616e41726751756572795769746844656661756c742824626f6f6c65616e4172673a20426f6f6c65616e203d207472756529207b0a090909617267756d656e7473207b0a090909096e6f6e4e756c6c426f6f6c65616e4172674669656c64286e6f6e4e756c6c426f6f6c65616e4172673a2024626f6f6c65616e417267290a0909097d0a09097d		0	
