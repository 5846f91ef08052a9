import Verif.Conform.Samples3
/-!
Generated by tools/conform.py, see Verif/Conform/Check.lean.
-/

namespace Verif.Conform

/-- `node_bullet_list`, samples.py:302 -/
example : node (.dict [("type", .str "bulletList".toList), ("attrs", .dict [("localId", .str "75e6c236-c975-45ef-bfba-2830ca6ac492".toList)]), ("content", .list [.dict [("type", .str "listItem".toList), ("attrs", .dict [("localId", .str "fa6929ae-fda2-44b4-9ec9-1a3d362eed57".toList)]), ("content", .list [.dict [("type", .str "paragraph".toList), ("attrs", .dict [("localId", .str "a482d172-84f8-494b-a9b1-c04af3227167".toList)]), ("content", .list [.dict [("text", .str "item ".toList), ("type", .str "text".toList)], .dict [("text", .str "1".toList), ("type", .str "text".toList), ("marks", .list [.dict [("type", .str "strong".toList)]])]])], .dict [("type", .str "bulletList".toList), ("attrs", .dict [("localId", .str "723e4215-2058-458a-8be1-f28e65ad37b0".toList)]), ("content", .list [.dict [("type", .str "listItem".toList), ("attrs", .dict [("localId", .str "b67c3a2c-c329-407d-8750-120c91e7d8bb".toList)]), ("content", .list [.dict [("type", .str "paragraph".toList), ("attrs", .dict [("localId", .str "99a3e4e8-af2b-40e7-a584-1c4e84641c58".toList)]), ("content", .list [.dict [("text", .str "item ".toList), ("type", .str "text".toList)], .dict [("text", .str "1.1".toList), ("type", .str "text".toList), ("marks", .list [.dict [("type", .str "strong".toList)]])]])], .dict [("type", .str "bulletList".toList), ("attrs", .dict [("localId", .str "d6491330-4ce5-4581-b77e-369fab061a03".toList)]), ("content", .list [.dict [("type", .str "listItem".toList), ("attrs", .dict [("localId", .str "b68b8002-950a-4816-81c4-afd263c919a2".toList)]), ("content", .list [.dict [("type", .str "paragraph".toList), ("attrs", .dict [("localId", .str "0180635b-7aec-4804-b99d-b09cbeff70b7".toList)]), ("content", .list [.dict [("text", .str "item ".toList), ("type", .str "text".toList)], .dict [("text", .str "1.1.1".toList), ("type", .str "text".toList), ("marks", .list [.dict [("type", .str "strong".toList)]])]])]])]])]])]])]])], .dict [("type", .str "listItem".toList), ("attrs", .dict [("localId", .str "5616226f-95d7-4274-a9e8-bd4bbb9e2183".toList)]), ("content", .list [.dict [("type", .str "paragraph".toList), ("attrs", .dict [("localId", .str "5a5ee388-7164-4087-b643-33bdf121792f".toList)]), ("content", .list [.dict [("text", .str "item 2".toList), ("type", .str "text".toList)]])], .dict [("type", .str "bulletList".toList), ("attrs", .dict [("localId", .str "6ba114c4-186a-4079-be27-9770d5d8f288".toList)]), ("content", .list [.dict [("type", .str "listItem".toList), ("attrs", .dict [("localId", .str "bba9e372-c20d-4eb0-b250-cda828f02d20".toList)]), ("content", .list [.dict [("type", .str "paragraph".toList), ("attrs", .dict [("localId", .str "54d1badf-f75d-4e97-bb6f-9f08cc82858e".toList)]), ("content", .list [.dict [("text", .str "item 2.1".toList), ("type", .str "text".toList)]])], .dict [("type", .str "bulletList".toList), ("attrs", .dict [("localId", .str "d43deecb-d735-4c6b-9901-21c16f326555".toList)]), ("content", .list [.dict [("type", .str "listItem".toList), ("attrs", .dict [("localId", .str "22ea1392-90be-4fe1-813a-5e2084cb747b".toList)]), ("content", .list [.dict [("type", .str "paragraph".toList), ("attrs", .dict [("localId", .str "4cfba2ed-d8d6-4e80-a41e-191fc1a44375".toList)]), ("content", .list [.dict [("text", .str "item 2.1.1".toList), ("type", .str "text".toList)]])]])]])]])]])]])], .dict [("type", .str "listItem".toList), ("attrs", .dict [("localId", .str "e439737b-095d-4ed1-a0cf-459038f7df95".toList)]), ("content", .list [.dict [("type", .str "paragraph".toList), ("attrs", .dict [("localId", .str "9de9863e-add2-4905-8f90-9e684dda86f8".toList)]), ("content", .list [.dict [("text", .str "item 3".toList), ("type", .str "text".toList)]])], .dict [("type", .str "bulletList".toList), ("attrs", .dict [("localId", .str "53b30542-69b3-4b70-a292-8f2d7cd3a5ce".toList)]), ("content", .list [.dict [("type", .str "listItem".toList), ("attrs", .dict [("localId", .str "e439737b-095d-4ed1-a0cf-459038f7df95".toList)]), ("content", .list [.dict [("type", .str "paragraph".toList), ("attrs", .dict [("localId", .str "e049d288-5ab0-49cd-a850-1dab004b34f2".toList)]), ("content", .list [.dict [("text", .str "item 3.1".toList), ("type", .str "text".toList)]])], .dict [("type", .str "bulletList".toList), ("attrs", .dict [("localId", .str "2cb4e148-6ad7-4704-83d1-688895e4caf1".toList)]), ("content", .list [.dict [("type", .str "listItem".toList), ("attrs", .dict [("localId", .str "e439737b-095d-4ed1-a0cf-459038f7df95".toList)]), ("content", .list [.dict [("type", .str "paragraph".toList), ("attrs", .dict [("localId", .str "db38a967-dae8-4215-9f65-321bebb43382".toList)]), ("content", .list [.dict [("text", .str "item 3.1.1".toList), ("type", .str "text".toList)]])]])]])]])]])]])]])]) (some "- item **1**\n    - item **1.1**\n        - item **1.1.1**\n- item 2\n    - item 2.1\n        - item 2.1.1\n- item 3\n    - item 3.1\n        - item 3.1.1") = true := by decide +kernel

end Verif.Conform
