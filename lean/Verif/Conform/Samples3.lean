import Verif.Conform.Samples2
/-!
Generated by tools/conform.py, see Verif/Conform/Check.lean.
-/

namespace Verif.Conform

/-- `node_task_list`, samples.py:336 -/
example : node (.dict [("type", .str "taskList".toList), ("attrs", .dict [("localId", .str "814c9e8c-de4b-4b9a-b900-9c69da6d233c".toList)]), ("content", .list [.dict [("type", .str "taskItem".toList), ("attrs", .dict [("state", .str "DONE".toList), ("localId", .str "aeb0a871-eca4-486f-ba85-a252d0d12a53".toList)]), ("content", .list [.dict [("text", .str "item ".toList), ("type", .str "text".toList)], .dict [("text", .str "1".toList), ("type", .str "text".toList), ("marks", .list [.dict [("type", .str "strong".toList)]])]])], .dict [("type", .str "taskList".toList), ("attrs", .dict [("localId", .str "851187cc-2c72-43fc-bbda-5f76a7622a10".toList)]), ("content", .list [.dict [("type", .str "taskItem".toList), ("attrs", .dict [("state", .str "DONE".toList), ("localId", .str "d34ab6d2-c326-41f0-9d7d-16b06d745285".toList)]), ("content", .list [.dict [("text", .str "item ".toList), ("type", .str "text".toList)], .dict [("text", .str "1.1".toList), ("type", .str "text".toList), ("marks", .list [.dict [("type", .str "strong".toList)]])]])], .dict [("type", .str "taskList".toList), ("attrs", .dict [("localId", .str "000ef888-f031-426a-8220-c760c0491072".toList)]), ("content", .list [.dict [("type", .str "taskItem".toList), ("attrs", .dict [("state", .str "DONE".toList), ("localId", .str "3b95a0e7-31de-412b-ad5f-9afb497fe63e".toList)]), ("content", .list [.dict [("text", .str "item ".toList), ("type", .str "text".toList)], .dict [("text", .str "1.1.1".toList), ("type", .str "text".toList), ("marks", .list [.dict [("type", .str "strong".toList)]])]])]])]])], .dict [("type", .str "taskItem".toList), ("attrs", .dict [("state", .str "TODO".toList), ("localId", .str "30409a39-d4cd-4426-87d2-7fc34bbad9e5".toList)]), ("content", .list [.dict [("text", .str "item 2".toList), ("type", .str "text".toList)]])], .dict [("type", .str "taskList".toList), ("attrs", .dict [("localId", .str "231b700f-ed15-45b1-918c-9fda14935667".toList)]), ("content", .list [.dict [("type", .str "taskItem".toList), ("attrs", .dict [("state", .str "DONE".toList), ("localId", .str "ce7da6bc-01e9-4d71-88a3-37f3d9462895".toList)]), ("content", .list [.dict [("text", .str "item 2.1".toList), ("type", .str "text".toList)]])], .dict [("type", .str "taskList".toList), ("attrs", .dict [("localId", .str "91a3400b-505b-4358-8b70-69e686cb284d".toList)]), ("content", .list [.dict [("type", .str "taskItem".toList), ("attrs", .dict [("state", .str "TODO".toList), ("localId", .str "a3a48d54-311f-4d07-a529-2dba83e35e12".toList)]), ("content", .list [.dict [("text", .str "item 2.1.1".toList), ("type", .str "text".toList)]])]])]])], .dict [("type", .str "taskItem".toList), ("attrs", .dict [("state", .str "TODO".toList), ("localId", .str "b1f4f8d9-f647-4959-a331-36c232a2cbeb".toList)]), ("content", .list [.dict [("text", .str "item 3".toList), ("type", .str "text".toList)]])], .dict [("type", .str "taskList".toList), ("attrs", .dict [("localId", .str "13b3ad55-3150-437c-af66-74f9088ce010".toList)]), ("content", .list [.dict [("type", .str "taskItem".toList), ("attrs", .dict [("state", .str "TODO".toList), ("localId", .str "64d7da65-5360-4e1c-b84b-61d3afcaa013".toList)]), ("content", .list [.dict [("text", .str "item 3.1".toList), ("type", .str "text".toList)]])], .dict [("type", .str "taskList".toList), ("attrs", .dict [("localId", .str "725c83c2-ca49-4575-bd37-68d6cf7a4119".toList)]), ("content", .list [.dict [("type", .str "taskItem".toList), ("attrs", .dict [("state", .str "DONE".toList), ("localId", .str "89548b2a-7b1b-42ca-b91f-7dadbb60ed66".toList)]), ("content", .list [.dict [("text", .str "item 3.1.1".toList), ("type", .str "text".toList)]])]])]])]])]) (some "- [x] item **1**\n    - [x] item **1.1**\n        - [x] item **1.1.1**\n- [ ] item 2\n    - [x] item 2.1\n        - [ ] item 2.1.1\n- [ ] item 3\n    - [ ] item 3.1\n        - [x] item 3.1.1") = true := by decide +kernel

/-- `node_table_simple`, samples.py:723 -/
example : node (.dict [("type", .str "table".toList), ("attrs", .dict [("layout", .str "default".toList), ("width", .float "760.0".toList), ("localId", .str "d15db724-4b20-40a2-9b99-34ae342563ea".toList)]), ("content", .list [.dict [("type", .str "tableRow".toList), ("attrs", .dict [("localId", .str "fbeb810a-3b14-4f0e-92de-d5ed7d11c5ba".toList)]), ("content", .list [.dict [("type", .str "tableHeader".toList), ("attrs", .dict [("colspan", .int 1), ("rowspan", .int 1), ("localId", .str "14a6defc-948f-4a38-8b44-d04ce951389e".toList)]), ("content", .list [.dict [("type", .str "paragraph".toList), ("attrs", .dict [("localId", .str "a3d3b93d-1c8f-4e32-b32e-f5ed9b861f3c".toList)]), ("content", .list [.dict [("text", .str "id".toList), ("type", .str "text".toList), ("marks", .list [.dict [("type", .str "strong".toList)]])]])]])], .dict [("type", .str "tableHeader".toList), ("attrs", .dict [("colspan", .int 1), ("rowspan", .int 1), ("localId", .str "a95cd864-07dc-4179-8915-3f9651d6ef86".toList)]), ("content", .list [.dict [("type", .str "paragraph".toList), ("attrs", .dict [("localId", .str "05f4e7a0-11b6-4ab1-aeaa-9e13bbcfed06".toList)]), ("content", .list [.dict [("text", .str "name".toList), ("type", .str "text".toList), ("marks", .list [.dict [("type", .str "strong".toList)]])]])]])]])], .dict [("type", .str "tableRow".toList), ("attrs", .dict [("localId", .str "462e018f-a0aa-43dc-9ad7-087511a92a22".toList)]), ("content", .list [.dict [("type", .str "tableCell".toList), ("attrs", .dict [("colspan", .int 1), ("rowspan", .int 1), ("localId", .str "4d47adc6-74a5-4729-b445-ddee10a5b91c".toList)]), ("content", .list [.dict [("type", .str "paragraph".toList), ("attrs", .dict [("localId", .str "2ee58bba-e306-4ff0-989d-58db4ed98672".toList)]), ("content", .list [.dict [("text", .str "1".toList), ("type", .str "text".toList)]])]])], .dict [("type", .str "tableCell".toList), ("attrs", .dict [("colspan", .int 1), ("rowspan", .int 1), ("localId", .str "0c3bc89d-5d85-430b-914b-77a236007943".toList)]), ("content", .list [.dict [("type", .str "paragraph".toList), ("attrs", .dict [("localId", .str "1943b5d4-11a4-4ee8-add4-45949e7123f7".toList)]), ("content", .list [.dict [("text", .str "alice".toList), ("type", .str "text".toList)]])]])]])], .dict [("type", .str "tableRow".toList), ("attrs", .dict [("localId", .str "3e847aac-9588-4b33-aee5-fafb145e58f3".toList)]), ("content", .list [.dict [("type", .str "tableCell".toList), ("attrs", .dict [("colspan", .int 1), ("rowspan", .int 1), ("localId", .str "7ed477fb-c50c-404d-9dbb-447587dab425".toList)]), ("content", .list [.dict [("type", .str "paragraph".toList), ("attrs", .dict [("localId", .str "b7296a32-39a6-4014-8f8a-1ce86f2fd02c".toList)]), ("content", .list [.dict [("text", .str "2".toList), ("type", .str "text".toList)]])]])], .dict [("type", .str "tableCell".toList), ("attrs", .dict [("colspan", .int 1), ("rowspan", .int 1), ("localId", .str "e2d33113-2e7b-4f6f-bcff-0e0798122de5".toList)]), ("content", .list [.dict [("type", .str "paragraph".toList), ("attrs", .dict [("localId", .str "92930ff9-353c-4a9d-a763-8629cc8818b4".toList)]), ("content", .list [.dict [("text", .str "bob".toList), ("type", .str "text".toList)]])]])]])]])]) (some "| **id**<br> | **name**<br> |\n| --- | --- |\n| 1<br> | alice<br> |\n| 2<br> | bob<br> |") = true := by decide +kernel

end Verif.Conform
