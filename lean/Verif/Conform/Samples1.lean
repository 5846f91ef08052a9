import Verif.Conform.Check
/-!
Generated by tools/conform.py, see Verif/Conform/Check.lean.
-/

namespace Verif.Conform

/-- `mark_background_color`, samples.py:197 -/
example : mark (.dict [("type", .str "backgroundColor".toList), ("attrs", .dict [("color", .str "#fedec8".toList)])]) = true := by decide +kernel

/-- `node_background_colored_text`, samples.py:198 -/
example : node (.dict [("text", .str "backgroundColor".toList), ("type", .str "text".toList), ("marks", .list [.dict [("type", .str "annotation".toList), ("attrs", .dict [("annotationType", .str "inlineComment".toList), ("id", .str "91ea44b3-4301-4fc3-be59-73c8968268df".toList)])], .dict [("type", .str "backgroundColor".toList), ("attrs", .dict [("color", .str "#fedec8".toList)])]])]) (some "backgroundColor") = true := by decide +kernel

/-- `mark_annotation`, samples.py:203 -/
example : mark (.dict [("type", .str "annotation".toList), ("attrs", .dict [("annotationType", .str "inlineComment".toList), ("id", .str "91ea44b3-4301-4fc3-be59-73c8968268df".toList)])]) = true := by decide +kernel

/-- `mark_code`, samples.py:209 -/
example : mark (.dict [("type", .str "code".toList)]) = true := by decide +kernel

/-- `mark_inline_code_text`, samples.py:210 -/
example : node (.dict [("text", .str "code".toList), ("type", .str "text".toList), ("marks", .list [.dict [("type", .str "annotation".toList), ("attrs", .dict [("annotationType", .str "inlineComment".toList), ("id", .str "2797ff66-173e-4d74-9766-f64e85101e52".toList)])], .dict [("type", .str "code".toList)]])]) (some "`` code ``") = true := by decide +kernel

/-- `mark_em`, samples.py:219 -/
example : mark (.dict [("type", .str "em".toList)]) = true := by decide +kernel

/-- `node_italic_text`, samples.py:220 -/
example : node (.dict [("text", .str "italic".toList), ("type", .str "text".toList), ("marks", .list [.dict [("type", .str "annotation".toList), ("attrs", .dict [("annotationType", .str "inlineComment".toList), ("id", .str "11e11989-515d-4776-a469-39efb8acf991".toList)])], .dict [("type", .str "em".toList)]])]) (some "*italic*") = true := by decide +kernel

/-- `mark_link`, samples.py:225 -/
example : mark (.dict [("type", .str "link".toList), ("attrs", .dict [("href", .str "https://example.com".toList)])]) = true := by decide +kernel

/-- `mark_strike`, samples.py:234 -/
example : mark (.dict [("type", .str "strike".toList)]) = true := by decide +kernel

/-- `node_strike_text`, samples.py:235 -/
example : node (.dict [("text", .str "strike".toList), ("type", .str "text".toList), ("marks", .list [.dict [("type", .str "annotation".toList), ("attrs", .dict [("annotationType", .str "inlineComment".toList), ("id", .str "f83f0976-6732-4067-b224-405e07196142".toList)])], .dict [("type", .str "strike".toList)]])]) (some "~~strike~~") = true := by decide +kernel

/-- `mark_strong`, samples.py:244 -/
example : mark (.dict [("type", .str "strong".toList)]) = true := by decide +kernel

/-- `node_strong_text`, samples.py:245 -/
example : node (.dict [("text", .str "strong".toList), ("type", .str "text".toList), ("marks", .list [.dict [("type", .str "annotation".toList), ("attrs", .dict [("annotationType", .str "inlineComment".toList), ("id", .str "95372fca-a9d5-4ebe-933b-3aba25e05d5d".toList)])], .dict [("type", .str "strong".toList)]])]) (some "**strong**") = true := by decide +kernel

/-- `mark_sub`, samples.py:254 -/
example : mark (.dict [("type", .str "subsup".toList), ("attrs", .dict [("type", .str "sub".toList)])]) = true := by decide +kernel

/-- `mark_sup`, samples.py:255 -/
example : mark (.dict [("type", .str "subsup".toList), ("attrs", .dict [("type", .str "sup".toList)])]) = true := by decide +kernel

/-- `node_sub_text`, samples.py:256 -/
example : node (.dict [("text", .str "sub".toList), ("type", .str "text".toList), ("marks", .list [.dict [("type", .str "annotation".toList), ("attrs", .dict [("annotationType", .str "inlineComment".toList), ("id", .str "6b9a8698-56bd-4801-859d-7ec5fb2452e6".toList)])], .dict [("type", .str "subsup".toList), ("attrs", .dict [("type", .str "sub".toList)])]])]) (some "sub") = true := by decide +kernel

/-- `node_sup_text`, samples.py:260 -/
example : node (.dict [("text", .str "sup".toList), ("type", .str "text".toList), ("marks", .list [.dict [("type", .str "annotation".toList), ("attrs", .dict [("annotationType", .str "inlineComment".toList), ("id", .str "6b9a8698-56bd-4801-859d-7ec5fb2452e6".toList)])], .dict [("type", .str "subsup".toList), ("attrs", .dict [("type", .str "sup".toList)])]])]) (some "sup") = true := by decide +kernel

/-- `mark_text_color`, samples.py:269 -/
example : mark (.dict [("type", .str "textColor".toList), ("attrs", .dict [("color", .str "#ff5630".toList)])]) = true := by decide +kernel

/-- `node_colored_text`, samples.py:270 -/
example : node (.dict [("text", .str "colored".toList), ("type", .str "text".toList), ("marks", .list [.dict [("type", .str "annotation".toList), ("attrs", .dict [("annotationType", .str "inlineComment".toList), ("id", .str "f2a5d076-0b55-4d77-84b0-47e74978b96b".toList)])], .dict [("type", .str "textColor".toList), ("attrs", .dict [("color", .str "#ff5630".toList)])]])]) (some "colored") = true := by decide +kernel

/-- `mark_underline`, samples.py:279 -/
example : mark (.dict [("type", .str "underline".toList)]) = true := by decide +kernel

/-- `node_underline_text`, samples.py:280 -/
example : node (.dict [("text", .str "underline".toList), ("type", .str "text".toList), ("marks", .list [.dict [("type", .str "annotation".toList), ("attrs", .dict [("annotationType", .str "inlineComment".toList), ("id", .str "e24592b3-703d-408d-bb61-306549d82557".toList)])], .dict [("type", .str "underline".toList)]])]) (some "underline") = true := by decide +kernel

/-- `node_text`, samples.py:288 -/
example : node (.dict [("text", .str "this is a text.".toList), ("type", .str "text".toList)]) (some "this is a text.") = true := by decide +kernel

/-- `node_rule`, samples.py:295 -/
example : node (.dict [("type", .str "rule".toList), ("attrs", .dict [("localId", .str "cef2b6cb-edcc-4a9c-8ccc-0400d811a9dd".toList)])]) (some "---") = true := by decide +kernel

/-- `node_decision_item_simple`, samples.py:358 -/
example : node (.dict [("type", .str "decisionItem".toList), ("attrs", .dict [("state", .str "DECIDED".toList), ("localId", .str "8b87d6fb-7e1a-404c-805f-cd9aca6a9fb0".toList)]), ("content", .list [.dict [("text", .str "decision ".toList), ("type", .str "text".toList)], .dict [("text", .str "1".toList), ("type", .str "text".toList), ("marks", .list [.dict [("type", .str "strong".toList)]])]])]) (some "> decision **1**") = true := by decide +kernel

/-- `node_decision_item_complex_1`, samples.py:364 -/
example : node (.dict [("type", .str "decisionItem".toList), ("attrs", .dict [("state", .str "DECIDED".toList), ("localId", .str "a50ac992-cd30-4500-8dc9-3f9462d01060".toList)]), ("content", .list [.dict [("text", .str "decision 2".toList), ("type", .str "text".toList)], .dict [("type", .str "hardBreak".toList)], .dict [("text", .str "- first".toList), ("type", .str "text".toList)], .dict [("type", .str "hardBreak".toList)], .dict [("text", .str "- second".toList), ("type", .str "text".toList)], .dict [("type", .str "hardBreak".toList)], .dict [("type", .str "hardBreak".toList)], .dict [("text", .str "some text".toList), ("type", .str "text".toList)]])]) (some "> decision 2\n> - first\n> - second\n>\n> some text") = true := by decide +kernel

/-- `node_decision_item_complex_2`, samples.py:374 -/
example : node (.dict [("type", .str "decisionItem".toList), ("attrs", .dict [("state", .str "DECIDED".toList), ("localId", .str "f2df7ca7-974f-4118-a017-c66ccb2ebe32".toList)]), ("content", .list [.dict [("text", .str "decision 3".toList), ("type", .str "text".toList)], .dict [("type", .str "hardBreak".toList)], .dict [("type", .str "hardBreak".toList)], .dict [("text", .str "1. ".toList), ("type", .str "text".toList)], .dict [("text", .str "https://example.com".toList), ("type", .str "text".toList), ("marks", .list [.dict [("type", .str "link".toList), ("attrs", .dict [("href", .str "https://example.com".toList)])]])], .dict [("text", .str " ".toList), ("type", .str "text".toList)], .dict [("type", .str "hardBreak".toList)], .dict [("text", .str "2. ".toList), ("type", .str "text".toList)], .dict [("type", .str "inlineCard".toList), ("attrs", .dict [("localId", .str "377a8d0b-04f5-4258-9a77-2010aedfdc71".toList), ("url", .str "https://example.com".toList)])], .dict [("text", .str " ".toList), ("type", .str "text".toList)], .dict [("type", .str "hardBreak".toList)], .dict [("type", .str "hardBreak".toList)], .dict [("text", .str "some text".toList), ("type", .str "text".toList)]])]) (some "> decision 3\n> 1. [https://example.com](https://example.com)\n> 2. [https://example.com](https://example.com)\n>\n> some text") = true := by decide +kernel

/-- `node_hard_break`, samples.py:407 -/
example : node (.dict [("type", .str "paragraph".toList), ("attrs", .dict [("localId", .str "ca291e63-0100-4752-af47-5be3833a8edc".toList)]), ("content", .list [.dict [("text", .str "below is a hard break".toList), ("type", .str "text".toList)], .dict [("type", .str "hardBreak".toList)], .dict [("text", .str "above is a hard break".toList), ("type", .str "text".toList)]])]) (some "below is a hard break  \nabove is a hard break") = true := by decide +kernel

/-- `node_date`, samples.py:415 -/
example : node (.dict [("type", .str "date".toList), ("attrs", .dict [("localId", .str "61bcc35b-be72-443f-91b0-aadef5731204".toList), ("timestamp", .str "1767225600000".toList)])]) (some "2026-01-01") = true := by decide +kernel

/-- `node_emoji`, samples.py:425 -/
example : node (.dict [("type", .str "emoji".toList), ("attrs", .dict [("id", .str "2699".toList), ("text", .str "⚙️".toList), ("shortName", .str ":gear:".toList), ("localId", .str "38f1140f-2ffb-4a50-8fdf-df058a7dd48a".toList)])]) (some "⚙️") = true := by decide +kernel

/-- `node_mention`, samples.py:435 -/
example : node (.dict [("type", .str "mention".toList), ("attrs", .dict [("id", .str "70121:5e8e6032-7f3d-4cfa-a4f7-c1bce3f8f06a".toList), ("localId", .str "830de724-8d82-4c40-bfae-63e5e5894734".toList), ("text", .str "@machu".toList)])]) (some "@machu") = true := by decide +kernel

/-- `node_status`, samples.py:445 -/
example : node (.dict [("type", .str "status".toList), ("attrs", .dict [("color", .str "blue".toList), ("style", .str "bold".toList), ("text", .str "TODO".toList), ("localId", .str "5af6078e-77cc-4be7-8c1f-c52aa07cf284".toList)])]) (some "`TODO`") = true := by decide +kernel

/-- `node_code_block`, samples.py:455 -/
example : node (.dict [("type", .str "codeBlock".toList), ("attrs", .dict [("language", .str "python".toList), ("localId", .str "74a0f271-419b-4c5d-bd6a-398ae38e4215".toList)]), ("content", .list [.dict [("text", .str "def add_two(a, b):\n    return a + b".toList), ("type", .str "text".toList)]])]) (some "```python\ndef add_two(a, b):\n    return a + b\n```") = true := by decide +kernel

/-- `node_heading_basic`, samples.py:472 -/
example : node (.dict [("type", .str "heading".toList), ("attrs", .dict [("level", .int 1), ("localId", .str "93780556-66ed-4495-aa42-bfd0453a7d22".toList)]), ("content", .list [.dict [("text", .str "header 1".toList), ("type", .str "text".toList)]])]) (some "# header 1") = true := by decide +kernel

/-- `node_header_1`, samples.py:478 -/
example : node (.dict [("type", .str "heading".toList), ("attrs", .dict [("level", .int 1), ("localId", .str "34de136b-8c02-4a17-bb8f-134cdf3306f1".toList)]), ("content", .list [.dict [("text", .str "header".toList), ("type", .str "text".toList), ("marks", .list [.dict [("type", .str "backgroundColor".toList), ("attrs", .dict [("color", .str "#fedec8".toList)])]])], .dict [("text", .str " 1".toList), ("type", .str "text".toList)]])]) (some "# header 1") = true := by decide +kernel

/-- `node_header_2`, samples.py:484 -/
example : node (.dict [("type", .str "heading".toList), ("attrs", .dict [("level", .int 2), ("localId", .str "474087c7-747f-47a6-84f4-ad280f14daab".toList)]), ("content", .list [.dict [("text", .str "header".toList), ("type", .str "text".toList), ("marks", .list [.dict [("type", .str "textColor".toList), ("attrs", .dict [("color", .str "#ff5630".toList)])]])], .dict [("text", .str " 2".toList), ("type", .str "text".toList)]])]) (some "## header 2") = true := by decide +kernel

/-- `node_header_3`, samples.py:490 -/
example : node (.dict [("type", .str "heading".toList), ("attrs", .dict [("level", .int 3), ("localId", .str "e109bc52-6b88-4935-bf35-1ed18afeebe0".toList)]), ("content", .list [.dict [("text", .str "header".toList), ("type", .str "text".toList), ("marks", .list [.dict [("type", .str "strong".toList)]])], .dict [("text", .str " 3".toList), ("type", .str "text".toList)]])]) (some "### **header** 3") = true := by decide +kernel

/-- `node_header_4`, samples.py:496 -/
example : node (.dict [("type", .str "heading".toList), ("attrs", .dict [("level", .int 4), ("localId", .str "5c6b60ae-b729-4ce1-8663-d0901ef6abe3".toList)]), ("content", .list [.dict [("text", .str "header".toList), ("type", .str "text".toList), ("marks", .list [.dict [("type", .str "strike".toList)]])], .dict [("text", .str " 4".toList), ("type", .str "text".toList)]])]) (some "#### ~~header~~ 4") = true := by decide +kernel

/-- `node_header_5`, samples.py:502 -/
example : node (.dict [("type", .str "heading".toList), ("attrs", .dict [("level", .int 5), ("localId", .str "4047f08d-c43b-4837-a206-a69ebea23e6f".toList)]), ("content", .list [.dict [("text", .str "header".toList), ("type", .str "text".toList), ("marks", .list [.dict [("type", .str "underline".toList)]])], .dict [("text", .str " 5".toList), ("type", .str "text".toList)]])]) (some "##### header 5") = true := by decide +kernel

/-- `node_header_6`, samples.py:508 -/
example : node (.dict [("type", .str "heading".toList), ("attrs", .dict [("level", .int 6), ("localId", .str "e4f43161-4f7b-492a-82e3-d4cd70a2b543".toList)]), ("content", .list [.dict [("text", .str "header".toList), ("type", .str "text".toList), ("marks", .list [.dict [("type", .str "link".toList), ("attrs", .dict [("href", .str "https://example.com".toList)])]])], .dict [("text", .str " 6".toList), ("type", .str "text".toList)]])]) (some "###### [header](https://example.com) 6") = true := by decide +kernel

/-- `node_inline_card`, samples.py:515 -/
example : node (.dict [("type", .str "inlineCard".toList), ("attrs", .dict [("localId", .str "ee9567d2-05b0-4f16-86fa-a1eeb6d546f5".toList), ("url", .str "https://example.com".toList)])]) (some "[https://example.com](https://example.com)") = true := by decide +kernel

/-- `node_block_card`, samples.py:525 -/
example : node (.dict [("type", .str "blockCard".toList), ("attrs", .dict [("localId", .str "ee9567d2-05b0-4f16-86fa-a1eeb6d546f5".toList), ("url", .str "https://example.com".toList)])]) (some "[https://example.com](https://example.com)") = true := by decide +kernel

/-- `node_embed_card`, samples.py:535 -/
example : node (.dict [("type", .str "embedCard".toList), ("attrs", .dict [("layout", .str "wide".toList), ("originalHeight", .float "480.0".toList), ("width", .float "100.0".toList), ("localId", .str "b98f36ea-5053-4cfe-851a-72a520db8328".toList), ("url", .str "https://www.youtube.com/watch?v=XqZsoesa55w".toList), ("originalWidth", .float "853.34".toList)])]) (some "[https://www.youtube.com/watch?v=XqZsoesa55w](https://www.youtube.com/watch?v=XqZsoesa55w)") = true := by decide +kernel

/-- `node_media_url_image`, samples.py:550 -/
example : node (.dict [("type", .str "media".toList), ("attrs", .dict [("width", .int 580), ("type", .str "external".toList), ("localId", .str "625b2ad0-41f6-446a-a9a1-a8b4d8e639e8".toList), ("url", .str "https://www.python.org/static/img/python-logo.png".toList), ("height", .int 164)])]) (some "![media](https://www.python.org/static/img/python-logo.png)") = true := by decide +kernel

/-- `node_media_url_image_with_caption`, samples.py:556 -/
example : node (.dict [("type", .str "media".toList), ("attrs", .dict [("width", .int 580), ("type", .str "external".toList), ("localId", .str "15043341-eb0d-47b1-9252-acfc32272ee2".toList), ("url", .str "https://www.python.org/static/img/python-logo.png".toList), ("height", .int 164)])]) (some "![media](https://www.python.org/static/img/python-logo.png)") = true := by decide +kernel

/-- `node_media_url_image_with_alt_text`, samples.py:562 -/
example : node (.dict [("type", .str "media".toList), ("attrs", .dict [("width", .int 580), ("alt", .str "python org".toList), ("type", .str "external".toList), ("localId", .str "bf31554e-7fc4-488d-9029-642c9b7ec9f9".toList), ("url", .str "https://www.python.org/static/img/python-logo.png".toList), ("height", .int 164)])]) (some "![python org](https://www.python.org/static/img/python-logo.png)") = true := by decide +kernel

/-- `node_media_url_image_with_clickable_link`, samples.py:568 -/
example : node (.dict [("type", .str "media".toList), ("attrs", .dict [("width", .int 580), ("type", .str "external".toList), ("localId", .str "8294555d-c6f5-4271-8c22-9941ef5fd216".toList), ("url", .str "https://www.python.org/static/img/python-logo.png".toList), ("height", .int 164)]), ("marks", .list [.dict [("type", .str "link".toList), ("attrs", .dict [("href", .str "https://python.org".toList)])]])]) (some "[![media](https://www.python.org/static/img/python-logo.png)](https://python.org)") = true := by decide +kernel

/-- `node_media_url_image_with_caption_and_clickable_link`, samples.py:574 -/
example : node (.dict [("type", .str "media".toList), ("attrs", .dict [("width", .int 580), ("alt", .str "this is alt text".toList), ("type", .str "external".toList), ("localId", .str "40964c5c-803a-40fe-8971-efe3a0cff3f7".toList), ("url", .str "https://www.python.org/static/img/python-logo.png".toList), ("height", .int 164)]), ("marks", .list [.dict [("type", .str "link".toList), ("attrs", .dict [("href", .str "https://python.org".toList)])]])]) (some "[![this is alt text](https://www.python.org/static/img/python-logo.png)](https://python.org)") = true := by decide +kernel

/-- `node_media_uploaded_image`, samples.py:580 -/
example : node (.dict [("type", .str "media".toList), ("attrs", .dict [("width", .int 580), ("alt", .str "python-logo.png".toList), ("id", .str "14407e98-14d3-4d5e-aa66-6a23621d5a85".toList), ("collection", .str "contentId-653558733".toList), ("type", .str "file".toList), ("localId", .str "50f805f9-2e1b-4b07-8507-50358a2578a2".toList), ("height", .int 164)])]) (some "![python-logo.png](media:14407e98-14d3-4d5e-aa66-6a23621d5a85)") = true := by decide +kernel

/-- `node_media_single_url_image`, samples.py:587 -/
example : node (.dict [("type", .str "mediaSingle".toList), ("attrs", .dict [("layout", .str "center".toList), ("width", .int 250), ("widthType", .str "pixel".toList)]), ("content", .list [.dict [("type", .str "media".toList), ("attrs", .dict [("width", .int 580), ("type", .str "external".toList), ("localId", .str "625b2ad0-41f6-446a-a9a1-a8b4d8e639e8".toList), ("url", .str "https://www.python.org/static/img/python-logo.png".toList), ("height", .int 164)])]])]) (some "![media](https://www.python.org/static/img/python-logo.png)") = true := by decide +kernel

/-- `node_media_single_url_image_with_caption`, samples.py:593 -/
example : node (.dict [("type", .str "mediaSingle".toList), ("attrs", .dict [("layout", .str "center".toList), ("width", .int 250), ("widthType", .str "pixel".toList)]), ("content", .list [.dict [("type", .str "media".toList), ("attrs", .dict [("width", .int 580), ("type", .str "external".toList), ("localId", .str "15043341-eb0d-47b1-9252-acfc32272ee2".toList), ("url", .str "https://www.python.org/static/img/python-logo.png".toList), ("height", .int 164)])], .dict [("type", .str "caption".toList), ("attrs", .dict [("localId", .str "ea7dce2f-563f-4787-a4c6-88b8354a4801".toList)]), ("content", .list [.dict [("text", .str "this is caption text".toList), ("type", .str "text".toList)]])]])]) (some "![media](https://www.python.org/static/img/python-logo.png)") = true := by decide +kernel

/-- `node_media_single_url_image_with_alt_text`, samples.py:599 -/
example : node (.dict [("type", .str "mediaSingle".toList), ("attrs", .dict [("layout", .str "center".toList), ("width", .int 250), ("widthType", .str "pixel".toList)]), ("content", .list [.dict [("type", .str "media".toList), ("attrs", .dict [("width", .int 580), ("alt", .str "python org".toList), ("type", .str "external".toList), ("localId", .str "bf31554e-7fc4-488d-9029-642c9b7ec9f9".toList), ("url", .str "https://www.python.org/static/img/python-logo.png".toList), ("height", .int 164)])]])]) (some "![python org](https://www.python.org/static/img/python-logo.png)") = true := by decide +kernel

/-- `node_media_single_url_image_with_clickable_link`, samples.py:605 -/
example : node (.dict [("type", .str "mediaSingle".toList), ("attrs", .dict [("layout", .str "center".toList), ("width", .int 250), ("widthType", .str "pixel".toList)]), ("content", .list [.dict [("type", .str "media".toList), ("attrs", .dict [("width", .int 580), ("type", .str "external".toList), ("localId", .str "8294555d-c6f5-4271-8c22-9941ef5fd216".toList), ("url", .str "https://www.python.org/static/img/python-logo.png".toList), ("height", .int 164)]), ("marks", .list [.dict [("type", .str "link".toList), ("attrs", .dict [("href", .str "https://python.org".toList)])]])]])]) (some "[![media](https://www.python.org/static/img/python-logo.png)](https://python.org)") = true := by decide +kernel

/-- `node_media_single_url_image_with_caption_and_clickable_link`, samples.py:611 -/
example : node (.dict [("type", .str "mediaSingle".toList), ("attrs", .dict [("layout", .str "center".toList), ("width", .int 250), ("widthType", .str "pixel".toList)]), ("content", .list [.dict [("type", .str "media".toList), ("attrs", .dict [("width", .int 580), ("alt", .str "this is alt text".toList), ("type", .str "external".toList), ("localId", .str "40964c5c-803a-40fe-8971-efe3a0cff3f7".toList), ("url", .str "https://www.python.org/static/img/python-logo.png".toList), ("height", .int 164)]), ("marks", .list [.dict [("type", .str "link".toList), ("attrs", .dict [("href", .str "https://python.org".toList)])]])], .dict [("type", .str "caption".toList), ("attrs", .dict [("localId", .str "61ef59c9-a5c4-4fdb-b3cc-f9c7ac8eb9ac".toList)]), ("content", .list [.dict [("text", .str "this is caption text".toList), ("type", .str "text".toList)]])]])]) (some "[![this is alt text](https://www.python.org/static/img/python-logo.png)](https://python.org)") = true := by decide +kernel

/-- `node_media_single_uploaded_image`, samples.py:617 -/
example : node (.dict [("type", .str "mediaSingle".toList), ("attrs", .dict [("layout", .str "center".toList), ("width", .int 580), ("widthType", .str "pixel".toList)]), ("content", .list [.dict [("type", .str "media".toList), ("attrs", .dict [("width", .int 580), ("alt", .str "python-logo.png".toList), ("id", .str "14407e98-14d3-4d5e-aa66-6a23621d5a85".toList), ("collection", .str "contentId-653558733".toList), ("type", .str "file".toList), ("localId", .str "50f805f9-2e1b-4b07-8507-50358a2578a2".toList), ("height", .int 164)])]])]) (some "![python-logo.png](media:14407e98-14d3-4d5e-aa66-6a23621d5a85)") = true := by decide +kernel

/-- `node_caption_on_url_image`, samples.py:628 -/
example : node (.dict [("type", .str "caption".toList), ("attrs", .dict [("localId", .str "ea7dce2f-563f-4787-a4c6-88b8354a4801".toList)]), ("content", .list [.dict [("text", .str "this is caption text".toList), ("type", .str "text".toList)]])]) (some "") = true := by decide +kernel

/-- `node_caption_on_uploaded_image`, samples.py:633 -/
example : node (.dict [("type", .str "caption".toList), ("attrs", .dict [("localId", .str "b84f280e-4a73-4a3d-9e8a-1bb95939283a".toList)]), ("content", .list [.dict [("text", .str "this is caption text".toList), ("type", .str "text".toList)]])]) (some "") = true := by decide +kernel

/-- `node_blockquote`, samples.py:649 -/
example : node (.dict [("type", .str "blockquote".toList), ("attrs", .dict [("localId", .str "870b485d-c6e5-414d-8d2e-81385b131b05".toList)]), ("content", .list [.dict [("type", .str "paragraph".toList), ("attrs", .dict [("localId", .str "930b14f0-45aa-47a0-911f-beaa22758a84".toList)]), ("content", .list [.dict [("text", .str "Alice says:".toList), ("type", .str "text".toList)]])], .dict [("type", .str "paragraph".toList), ("attrs", .dict [("localId", .str "61d50dbc-3d9d-425a-a46d-485d0489b6e9".toList)]), ("content", .list [.dict [("text", .str "Just do it!".toList), ("type", .str "text".toList)]])]])]) (some "> Alice says:\n> \n> Just do it!") = true := by decide +kernel

/-- `node_panel`, samples.py:661 -/
example : node (.dict [("type", .str "panel".toList), ("attrs", .dict [("panelType", .str "info".toList), ("localId", .str "e0967b6a-e8fd-48ae-abc3-8f91cd0cbfd3".toList)]), ("content", .list [.dict [("type", .str "paragraph".toList), ("attrs", .dict [("localId", .str "a84c8be4-f646-42c5-8f03-ac7ab9381e54".toList)]), ("content", .list [.dict [("text", .str "This is info".toList), ("type", .str "text".toList)]])]])]) (some "> **INFO**\n> \n> This is info") = true := by decide +kernel

/-- `node_doc_with_unimplemented_model`, samples.py:771 -/
example : node (.dict [("type", .str "doc".toList), ("content", .list [.dict [("type", .str "bodiedExtension".toList), ("attrs", .dict [("layout", .str "default".toList), ("extensionType", .str "com.atlassian.confluence.macro.core".toList), ("extensionKey", .str "details".toList), ("parameters", .dict [("macroParams", .dict []), ("macroMetadata", .dict [("macroId", .dict [("value", .str "d8186283-5e3d-4961-a80a-6a75211d1973".toList)]), ("schemaVersion", .dict [("value", .str "1".toList)]), ("title", .str "Page Properties".toList)])]), ("localId", .str "ce1e7124-8553-4996-978e-4003fed4bfe4".toList)]), ("content", .list [.dict [("type", .str "table".toList), ("attrs", .dict [("layout", .str "default".toList), ("width", .float "760.0".toList), ("localId", .str "c8d3aa68-d60b-4a36-96b4-80ef52074343".toList)]), ("content", .list [.dict [("type", .str "tableRow".toList), ("attrs", .dict [("localId", .str "d94196e4-ae40-4c4d-8263-c1267e315b73".toList)]), ("content", .list [.dict [("type", .str "tableHeader".toList), ("attrs", .dict [("colspan", .int 1), ("rowspan", .int 1), ("localId", .str "0f001cef-dd4b-4167-9342-7319a407deb3".toList)]), ("content", .list [.dict [("type", .str "paragraph".toList), ("attrs", .dict [("localId", .str "3590d6ee-8f18-4231-ab6e-40a2a89e921d".toList)]), ("content", .list [.dict [("text", .str "owner".toList), ("type", .str "text".toList)]])]])], .dict [("type", .str "tableCell".toList), ("attrs", .dict [("colspan", .int 1), ("background", .str "#ffffff".toList), ("rowspan", .int 1), ("localId", .str "d7772d36-024e-46c7-a662-2c7c4c39152a".toList)]), ("content", .list [.dict [("type", .str "paragraph".toList), ("attrs", .dict [("localId", .str "e0a0fa86-d464-4327-a205-b11ad4926d57".toList)]), ("content", .list [.dict [("text", .str "alice".toList), ("type", .str "text".toList)]])]])]])], .dict [("type", .str "tableRow".toList), ("attrs", .dict [("localId", .str "f10e3d46-f2c5-4e01-a3ab-67e5f78028a4".toList)]), ("content", .list [.dict [("type", .str "tableHeader".toList), ("attrs", .dict [("colspan", .int 1), ("background", .str "#f4f5f7".toList), ("rowspan", .int 1), ("localId", .str "a539f926-503c-4f4f-93ef-f994301cca22".toList)]), ("content", .list [.dict [("type", .str "paragraph".toList), ("attrs", .dict [("localId", .str "e96ddaae-077e-4cd3-a5f0-0717c9cc7e5a".toList)]), ("content", .list [.dict [("text", .str "email".toList), ("type", .str "text".toList), ("marks", .list [.dict [("type", .str "strong".toList)]])]])]])], .dict [("type", .str "tableCell".toList), ("attrs", .dict [("colspan", .int 1), ("rowspan", .int 1), ("localId", .str "365ce9ce-ccb6-4179-a20a-feb5f08e374e".toList)]), ("content", .list [.dict [("type", .str "paragraph".toList), ("attrs", .dict [("localId", .str "85afd6e5-b871-4816-9614-05a5a48c2cbc".toList)]), ("content", .list [.dict [("text", .str "alice@example.com".toList), ("type", .str "text".toList)]])]])]])]])]])], .dict [("type", .str "paragraph".toList), ("attrs", .dict [("localId", .str "17abab3e-0753-4aea-9374-5a2014dfa1e5".toList)]), ("content", .list [.dict [("text", .str "Hello World".toList), ("type", .str "text".toList)]])]]), ("version", .int 1)]) (some "Hello World") = true := by decide +kernel

end Verif.Conform
