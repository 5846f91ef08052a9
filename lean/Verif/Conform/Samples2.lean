import Verif.Conform.Samples1
/-!
Generated by tools/conform.py, see Verif/Conform/Check.lean.
-/

namespace Verif.Conform

/-- `node_decision_list`, samples.py:385 -/
example : node (.dict [("type", .str "decisionList".toList), ("attrs", .dict [("localId", .str "8984dcfa-e423-4d83-ae2c-501dee166a48".toList)]), ("content", .list [.dict [("type", .str "decisionItem".toList), ("attrs", .dict [("state", .str "DECIDED".toList), ("localId", .str "8b87d6fb-7e1a-404c-805f-cd9aca6a9fb0".toList)]), ("content", .list [.dict [("text", .str "decision ".toList), ("type", .str "text".toList)], .dict [("text", .str "1".toList), ("type", .str "text".toList), ("marks", .list [.dict [("type", .str "strong".toList)]])]])], .dict [("type", .str "decisionItem".toList), ("attrs", .dict [("state", .str "DECIDED".toList), ("localId", .str "a50ac992-cd30-4500-8dc9-3f9462d01060".toList)]), ("content", .list [.dict [("text", .str "decision 2".toList), ("type", .str "text".toList)], .dict [("type", .str "hardBreak".toList)], .dict [("text", .str "- first".toList), ("type", .str "text".toList)], .dict [("type", .str "hardBreak".toList)], .dict [("text", .str "- second".toList), ("type", .str "text".toList)], .dict [("type", .str "hardBreak".toList)], .dict [("type", .str "hardBreak".toList)], .dict [("text", .str "some text".toList), ("type", .str "text".toList)]])], .dict [("type", .str "decisionItem".toList), ("attrs", .dict [("state", .str "DECIDED".toList), ("localId", .str "f2df7ca7-974f-4118-a017-c66ccb2ebe32".toList)]), ("content", .list [.dict [("text", .str "decision 3".toList), ("type", .str "text".toList)], .dict [("type", .str "hardBreak".toList)], .dict [("type", .str "hardBreak".toList)], .dict [("text", .str "1. ".toList), ("type", .str "text".toList)], .dict [("text", .str "https://example.com".toList), ("type", .str "text".toList), ("marks", .list [.dict [("type", .str "link".toList), ("attrs", .dict [("href", .str "https://example.com".toList)])]])], .dict [("text", .str " ".toList), ("type", .str "text".toList)], .dict [("type", .str "hardBreak".toList)], .dict [("text", .str "2. ".toList), ("type", .str "text".toList)], .dict [("type", .str "inlineCard".toList), ("attrs", .dict [("localId", .str "377a8d0b-04f5-4258-9a77-2010aedfdc71".toList), ("url", .str "https://example.com".toList)])], .dict [("text", .str " ".toList), ("type", .str "text".toList)], .dict [("type", .str "hardBreak".toList)], .dict [("type", .str "hardBreak".toList)], .dict [("text", .str "some text".toList), ("type", .str "text".toList)]])]])]) (some "> decision **1**\n\n> decision 2\n> - first\n> - second\n>\n> some text\n\n> decision 3\n> 1. [https://example.com](https://example.com)\n> 2. [https://example.com](https://example.com)\n>\n> some text") = true := by decide +kernel

/-- `node_nested_expand_in_expand`, samples.py:678 -/
example : node (.dict [("type", .str "nestedExpand".toList), ("attrs", .dict [("title", .str "level 2 expand title".toList), ("localId", .str "73c7b926-dc65-4d96-a8d7-4fc4afef4c10".toList)]), ("content", .list [.dict [("type", .str "paragraph".toList), ("attrs", .dict [("localId", .str "1f40656f-6df6-42e3-84c7-97e34b7371ab".toList)]), ("content", .list [.dict [("text", .str "level 2 expand content (level 2 is the max)".toList), ("type", .str "text".toList)]])], .dict [("type", .str "paragraph".toList), ("attrs", .dict [("localId", .str "b2714fd5-ec68-4587-8f33-9c117e304f2f".toList)]), ("content", .list [.dict [("type", .str "inlineCard".toList), ("attrs", .dict [("localId", .str "2dadf850-e7b2-440a-8740-19ba39aa9e95".toList), ("url", .str "https://example.com".toList)])], .dict [("text", .str " ".toList), ("type", .str "text".toList)]])], .dict [("type", .str "panel".toList), ("attrs", .dict [("panelType", .str "info".toList), ("localId", .str "2f32e0d3-b4ea-4257-9648-8a5e6bc1c516".toList)]), ("content", .list [.dict [("type", .str "paragraph".toList), ("attrs", .dict [("localId", .str "a5b9a66f-9b4f-4f11-be1e-50d8537a4a4a".toList)]), ("content", .list [.dict [("text", .str "some info".toList), ("type", .str "text".toList)]])]])]])]) (some "level 2 expand content (level 2 is the max)\n\n[https://example.com](https://example.com) \n\n> **INFO**\n> \n> some info") = true := by decide +kernel

/-- `node_expand`, samples.py:690 -/
example : node (.dict [("type", .str "expand".toList), ("attrs", .dict [("title", .str "level 1 expand title".toList), ("localId", .str "0c54deb8-d528-4934-a1ce-45db9185ec17".toList)]), ("content", .list [.dict [("type", .str "paragraph".toList), ("attrs", .dict [("localId", .str "ebcae9f5-5aec-47f5-97bf-509c81a9e871".toList)]), ("content", .list [.dict [("text", .str "level 1 expand content".toList), ("type", .str "text".toList)]])], .dict [("type", .str "bulletList".toList), ("attrs", .dict [("localId", .str "fdf72148-8dc4-4b13-ad70-ba91f4d36a9a".toList)]), ("content", .list [.dict [("type", .str "listItem".toList), ("attrs", .dict [("localId", .str "57f28269-1689-48a2-8696-0a709b67cc38".toList)]), ("content", .list [.dict [("type", .str "paragraph".toList), ("attrs", .dict [("localId", .str "781e1fda-81e8-458b-b1cd-9d7bcaa1f87f".toList)]), ("content", .list [.dict [("text", .str "bullet list".toList), ("type", .str "text".toList)]])]])]])], .dict [("type", .str "blockquote".toList), ("attrs", .dict [("localId", .str "8847083c-ea78-4d52-a042-e5f8eb1d3477".toList)]), ("content", .list [.dict [("type", .str "paragraph".toList), ("attrs", .dict [("localId", .str "8362bbf9-dfdd-4db9-8973-5ebed011017c".toList)]), ("content", .list [.dict [("text", .str "some quote".toList), ("type", .str "text".toList)]])]])], .dict [("type", .str "nestedExpand".toList), ("attrs", .dict [("title", .str "level 2 expand title".toList), ("localId", .str "73c7b926-dc65-4d96-a8d7-4fc4afef4c10".toList)]), ("content", .list [.dict [("type", .str "paragraph".toList), ("attrs", .dict [("localId", .str "1f40656f-6df6-42e3-84c7-97e34b7371ab".toList)]), ("content", .list [.dict [("text", .str "level 2 expand content (level 2 is the max)".toList), ("type", .str "text".toList)]])], .dict [("type", .str "paragraph".toList), ("attrs", .dict [("localId", .str "b2714fd5-ec68-4587-8f33-9c117e304f2f".toList)]), ("content", .list [.dict [("type", .str "inlineCard".toList), ("attrs", .dict [("localId", .str "2dadf850-e7b2-440a-8740-19ba39aa9e95".toList), ("url", .str "https://example.com".toList)])], .dict [("text", .str " ".toList), ("type", .str "text".toList)]])], .dict [("type", .str "panel".toList), ("attrs", .dict [("panelType", .str "info".toList), ("localId", .str "2f32e0d3-b4ea-4257-9648-8a5e6bc1c516".toList)]), ("content", .list [.dict [("type", .str "paragraph".toList), ("attrs", .dict [("localId", .str "a5b9a66f-9b4f-4f11-be1e-50d8537a4a4a".toList)]), ("content", .list [.dict [("text", .str "some info".toList), ("type", .str "text".toList)]])]])]])]])]) (some "level 1 expand content\n\n- bullet list\n\n> some quote\n\nlevel 2 expand content (level 2 is the max)\n\n[https://example.com](https://example.com) \n\n> **INFO**\n> \n> some info") = true := by decide +kernel

end Verif.Conform
