import Verif.Conform.Samples4
/-!
Generated by tools/conform.py, see Verif/Conform/Check.lean.
-/

namespace Verif.Conform

/-- `node_ordered_list`, samples.py:319 -/
example : node (.dict [("type", .str "orderedList".toList), ("attrs", .dict [("localId", .str "af08321b-d3e5-4eb4-804b-0f52198f6d3e".toList), ("order", .int 1)]), ("content", .list [.dict [("type", .str "listItem".toList), ("attrs", .dict [("localId", .str "e83ac6f7-9c20-4517-ae59-b1db6e3e548e".toList)]), ("content", .list [.dict [("type", .str "paragraph".toList), ("attrs", .dict [("localId", .str "cb19718c-9e43-4ee6-8999-61a8560bbfa1".toList)]), ("content", .list [.dict [("text", .str "item ".toList), ("type", .str "text".toList)], .dict [("text", .str "1".toList), ("type", .str "text".toList), ("marks", .list [.dict [("type", .str "strong".toList)]])]])], .dict [("type", .str "orderedList".toList), ("attrs", .dict [("localId", .str "d9f90dd6-8fcb-489d-b11f-a54176243243".toList), ("order", .int 1)]), ("content", .list [.dict [("type", .str "listItem".toList), ("attrs", .dict [("localId", .str "e83ac6f7-9c20-4517-ae59-b1db6e3e548e".toList)]), ("content", .list [.dict [("type", .str "paragraph".toList), ("attrs", .dict [("localId", .str "4d62a842-ee0f-48c9-9a39-2061b68dfc24".toList)]), ("content", .list [.dict [("text", .str "item ".toList), ("type", .str "text".toList)], .dict [("text", .str "1.1".toList), ("type", .str "text".toList), ("marks", .list [.dict [("type", .str "strong".toList)]])]])], .dict [("type", .str "orderedList".toList), ("attrs", .dict [("localId", .str "338c8e01-0f1d-4a01-bafd-071551a0705a".toList), ("order", .int 1)]), ("content", .list [.dict [("type", .str "listItem".toList), ("attrs", .dict [("localId", .str "e83ac6f7-9c20-4517-ae59-b1db6e3e548e".toList)]), ("content", .list [.dict [("type", .str "paragraph".toList), ("attrs", .dict [("localId", .str "a2460e1e-690a-4c83-930a-32f3561f0a9d".toList)]), ("content", .list [.dict [("text", .str "item ".toList), ("type", .str "text".toList)], .dict [("text", .str "1.1.1".toList), ("type", .str "text".toList), ("marks", .list [.dict [("type", .str "strong".toList)]])]])]])]])]])]])]])], .dict [("type", .str "listItem".toList), ("attrs", .dict [("localId", .str "cfcceef5-807f-4785-812e-c460c64daa69".toList)]), ("content", .list [.dict [("type", .str "paragraph".toList), ("attrs", .dict [("localId", .str "7dd068d7-72be-4190-9695-7c5b7879d49f".toList)]), ("content", .list [.dict [("text", .str "item 2".toList), ("type", .str "text".toList)]])], .dict [("type", .str "orderedList".toList), ("attrs", .dict [("localId", .str "b43fe0d1-5e38-4339-a10b-f104e9bedc37".toList), ("order", .int 1)]), ("content", .list [.dict [("type", .str "listItem".toList), ("attrs", .dict [("localId", .str "cfcceef5-807f-4785-812e-c460c64daa69".toList)]), ("content", .list [.dict [("type", .str "paragraph".toList), ("attrs", .dict [("localId", .str "39cb1c17-3492-4e4e-8cff-e33d35a4cda3".toList)]), ("content", .list [.dict [("text", .str "item 2.1".toList), ("type", .str "text".toList)]])], .dict [("type", .str "orderedList".toList), ("attrs", .dict [("localId", .str "bde4f180-7980-457a-81fb-b16479e98a14".toList), ("order", .int 1)]), ("content", .list [.dict [("type", .str "listItem".toList), ("attrs", .dict [("localId", .str "cfcceef5-807f-4785-812e-c460c64daa69".toList)]), ("content", .list [.dict [("type", .str "paragraph".toList), ("attrs", .dict [("localId", .str "8a6488e9-2feb-4653-97b9-6ecd5fb0b818".toList)]), ("content", .list [.dict [("text", .str "item 2.1.1".toList), ("type", .str "text".toList)]])]])]])]])]])]])], .dict [("type", .str "listItem".toList), ("attrs", .dict [("localId", .str "35a22ad6-2aa3-47a8-bda6-852ab41a74a4".toList)]), ("content", .list [.dict [("type", .str "paragraph".toList), ("attrs", .dict [("localId", .str "c7af5b11-043f-41a7-b5db-15843e7bceb2".toList)]), ("content", .list [.dict [("text", .str "item 3".toList), ("type", .str "text".toList)]])], .dict [("type", .str "orderedList".toList), ("attrs", .dict [("localId", .str "9ec380cb-2f4b-47a3-a66b-a9622d0f9abb".toList), ("order", .int 1)]), ("content", .list [.dict [("type", .str "listItem".toList), ("attrs", .dict [("localId", .str "35a22ad6-2aa3-47a8-bda6-852ab41a74a4".toList)]), ("content", .list [.dict [("type", .str "paragraph".toList), ("attrs", .dict [("localId", .str "9029f293-45b8-4cd2-8654-1d8774ed3bcb".toList)]), ("content", .list [.dict [("text", .str "item 3.1".toList), ("type", .str "text".toList)]])], .dict [("type", .str "orderedList".toList), ("attrs", .dict [("localId", .str "cb60804d-322e-45cf-9d4d-32c2f1fcc0aa".toList), ("order", .int 1)]), ("content", .list [.dict [("type", .str "listItem".toList), ("attrs", .dict [("localId", .str "35a22ad6-2aa3-47a8-bda6-852ab41a74a4".toList)]), ("content", .list [.dict [("type", .str "paragraph".toList), ("attrs", .dict [("localId", .str "1a08ca27-6b92-4df1-a85d-51239bbf69bb".toList)]), ("content", .list [.dict [("text", .str "item 3.1.1".toList), ("type", .str "text".toList)]])]])]])]])]])]])]])]) (some "1. item **1**\n    1. item **1.1**\n        1. item **1.1.1**\n2. item 2\n    1. item 2.1\n        1. item 2.1.1\n3. item 3\n    1. item 3.1\n        1. item 3.1.1") = true := by decide +kernel

end Verif.Conform
