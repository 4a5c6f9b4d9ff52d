/-!
# The constant tables of the POLYVAL field (model data)

Copied from `crates/field/src/polyval.rs` and
`crates/field/src/arch/portable/packed_polyval_128.rs`; the code writes the second kind in decimal.
Values are natural numbers below `2^128`, in the order of the code.
-/

namespace Verif.Field.Polyval

/-- `BINARY_TO_POLYVAL_TRANSFORMATION`, `polyval.rs:516-646`. -/
def binaryToPolyvalBases : List Nat := [
  0xc2000000000000000000000000000001,
  0x21a09a4bf26aadcd3eb19c5f1a06b528,
  0xe62f1a804db43b94852cef0e61d7353d,
  0xadcde131ca862a6ba378ea68e992a5b6,
  0x5474611d07bdcd1f72e9bdc82ec4fe6c,
  0xf9a472d4a4965f4caa3532aa6258c986,
  0x10bd76c920260f81877681ed1a50b210,
  0xe7f3264523858ca36ef84934fdd225f2,
  0x586704bda927015fedb8ddceb7f825d6,
  0x552dab8acfd831aeb65f8aaec9cef096,
  0xeccdac666a363defde6792e475892fb3,
  0x4a621d01701247f6e4a8327e33d95aa2,
  0x8ed5002fed1f4b9a9a11840f87149e2d,
  0x3c65abbd41c759f0302467db5a791e09,
  0xc2df68a5949a96b3aa643692e93caaab,
  0x4455027df88c165117daf9822eb57383,
  0xc50e3a207f91d7cd6dd1e116d55455fb,
  0xc89c3920b9b24b755fd08543d8caf5a2,
  0xfa583eb935de76a2ec180360b6548830,
  0xc4d3d3b9938f3af77800a5cd03690171,
  0xe1faff3b895be1e2bec91c0836143b44,
  0x256bd50f868b82cf1c83552eeb1cd844,
  0x82fd35d590073ae9595cab38e9b59d79,
  0x08dadd230bc90e192304a2533cdce9e6,
  0xf4400f37acedc7d9502abeff6cead84c,
  0x5438d34e2b5b90328cc88b7384deedfb,
  0x7d798db71ef80a3e447cd7d1d4a0385d,
  0xa50d5ef4e33979db8012303dc09cbf35,
  0x91c4b5e29de5759e0bb337efbc5b8115,
  0xbbb0d4aaba0fab72848f461ed0a4b110,
  0x3c9de86b9a306d6d11cc078904076865,
  0xb5f43a166aa1f15f99db6d689ca1b370,
  0xa26153cb8c150af8243ecbd46378e59e,
  0xccaa154bab1dd7aca876f81fe0c950ab,
  0x4185b7e3ee1dddbc761a6139cdb07755,
  0x2c9f95285b7aa574653ed207337325f2,
  0xc8ba616ab131bfd242195c4c82d54dbb,
  0x2a9b07221a34865faa36a28da1ab1c24,
  0x7e6e572804b548a88b92900e0196dd39,
  0x4e9060deff44c9ef9882a0015debd575,
  0x00a3a4d8c163c95ac7ac9a5b424e1c65,
  0xf67c7eb5dde73d96f8f5eecba6033679,
  0x54d78d187bbb57d19b536094ba539fde,
  0x76c553699edc5d4a033139975ab7f264,
  0x74ae8da43b2f587df3e41bbf5c6be650,
  0x8a2941b59774c41acd850aa6098e5fd2,
  0x9ddf65660a6f8f3c0058165a063de84c,
  0xbb52da733635cc3d1ff02ef96ee64cf3,
  0x564032a0d5d3773b7b7ed18bebf1c668,
  0xef5c765e64b24b1b00222054ff0040ef,
  0xade661c18acba6233d484726e6249bee,
  0x9939ba35c969cdeea29f2ef849c2d170,
  0x2b100b39761d4f23eb42d05b80174ce2,
  0xfbc25b179830f9eec765bd6229125d6c,
  0xb58e089ebe7ad0b2698e30184ab93141,
  0x53874933a148be94d12025afa876234c,
  0x41bbc7902188f4e9880f1d81fa580ffb,
  0xea4199916a5d127d25da1fe777b2dcbb,
  0xe7bc816547efbe987d9359ee0de0c287,
  0x02e0f1f67e7139835892155a7addd9da,
  0xdc6beb6eade9f875e74955ca950af235,
  0x786d616edeadfa356453a78d8f103230,
  0xe84e70191accaddac8034da936737487,
  0x012b8669ff3f451e5363edfddd37fb3c,
  0x756209f0893e96877833c194b9c943a0,
  0xb2ac9efc9a1891369f63bd1e0d1439ac,
  0x4de88e9a5bbb4c3df650cc3994c3d2d8,
  0x8de7b5c85c07f3359849e7c85e426b54,
  0xcadd54ae6a7e72a4f184e6761cf226d4,
  0xcdb182fb8d95496f55b5f3952f81bc30,
  0x40013bc3c81722753a05bb2aca01a02e,
  0x704e7ce55e9033883e97351591adf18a,
  0xf330cd9a74a5e884988c3f36567d26f4,
  0x18f4535304c0d74ac3bdf09d78cbde50,
  0xfe739c97fc26bed28885b838405c7e7e,
  0x492479260f2dcd8af980c3d74b3ec345,
  0x96b6440a34de0aad4ea2f744396691af,
  0x98355d1b4f7cfb03960a59aa564a7a26,
  0x2703fda0532095ca8b1886b12ca37d64,
  0x59c9dabe49bebf6b468c3c120f142822,
  0xf8f3c35c671bac841b14381a592e6cdd,
  0xd7b888791bd83b13d80d2e9324894861,
  0x113ab0405354dd1c5aab9658137fa73f,
  0xae56192d5e9c309e461f797121b28ce6,
  0xb7927ec7a84c2e04811a6dac6b997783,
  0x9e2f8d67fc600703ba9b4189ce751cb4,
  0x574e95df2d8bb9e2c8fc29729eb723ca,
  0x38bc6fc47739c06cd9fa20f9a5088f26,
  0x69d3b9b1d9483174b3c38d8f95ce7a5f,
  0xd6e4bb147cc82b6e90e27e882f18640d,
  0x027338db641804d985cd9fece12f7adc,
  0x523cb73968169ccce76f523928c4364e,
  0xcdcf898117f927208a11b0dcc941f2f6,
  0xc908287814c8cba67f7892fec7a5b217,
  0x92b99988bb26215d104968d4cbbb285a,
  0x4dbca8fd835d00ea4b95692534ef5068,
  0xcd8b92c8a6e0e65e167a2b851f32fd9c,
  0xc3473dfda9f97d6ac1e2d544628e7845,
  0x0260e7badc64dbfde0dc39a240365722,
  0x3966125b40fe2bca9719c80e41953868,
  0xac0211506eda3cba57b709a360d4a2c7,
  0x0e4f0e47d02fedd15b337fefa219c52b,
  0x1d5907ccdc659f7aace675511f754ee3,
  0x4ad5b368eaddc4bb097284863b2a5b6e,
  0x2eae07273b8c4fc5cef553a4a46cde5b,
  0x096a310e7b1e3a3179d4a3b5d8dd9396,
  0x8c81362eeb1656a91dde08d05018a353,
  0x387e59e44cc0d53fecf7f057b6fdba0b,
  0x9d29670bbd0e8051ac82d91ca97561d6,
  0xaf1310d0f5cac4e89714e48065be74a4,
  0x9b684a3865c2b59c411d14182a36fb6b,
  0x3e7de163516ffdcaca22b4e848340fbe,
  0x3c37dbe331de4b0dc2f5db315d5e7fda,
  0x19e7f4b53ff86990e3d5a1c40c3769a0,
  0x56469ab32b2b82e8cc93fdb1b14a4775,
  0x9c01cefde47816300d8ad49d260bb71b,
  0x6100101b8cebde7381366fec1e4e52c0,
  0xa28d30c3cbd8b69632143fa65158ee4f,
  0x3db7a902ec509e58151c45f71eee6368,
  0x42d5a505e8ab70097107d37d79ebbaba,
  0xe47b83247cb2b162c7d6d15c84cca8ce,
  0x076caf0e23541c753e4c87ff505737a5,
  0x590a8d1cdbd17ae83980f5d1d3b84a89,
  0x77d649ff61a7cd0da53497edd34c4204,
  0xefbe0c34eeab379ea4a8feed84fd3993,
  0x90540cf7957a8a3051629cdde777f968,
  0x8749050496dd288244c49c70aa92831f,
  0x0fc80b1d600406b2370368d94947961a]

/-- `POLYVAL_TO_BINARY_TRANSFORMATION`, `polyval.rs:654-784`. -/
def polyvalToBinaryBases : List Nat := [
  0x66e1d645d7eb87dca8fc4d30a32dadcc,
  0x53ca87ba77172fd8c5675d78c59c1901,
  0x1a9cf63d31827dcda15acb755a948567,
  0xa8f28bdf6d29cee2474b0401a99f6c0a,
  0x4eefa9efe87ed19c06b39ca9799c8d73,
  0x06ec578f505abf1e9885a6b2bc494f3e,
  0x70ecdfe1f601f8509a96d3fb9cd3348a,
  0xcb0d16fc7f13733deb25f618fc3faf28,
  0x4e9a97aa2c84139ffcb578115fcbef3c,
  0xc6de6210afe8c6bd9a441bffe19219ad,
  0x73e3e8a7c59748601be5bf1e30c488d3,
  0x1f6d67e2e64bd6c4b39e7f4bb37dce9c,
  0xc34135d567eada885f5095b4c155f3b5,
  0x23f165958d59a55e4790b8e2e37330e4,
  0x4f2be978f16908e405b88802add08d17,
  0x6442b00f5bbf4009907936513c3a7d45,
  0xac63f0397d911a7a5d61b9f18137026f,
  0x8e70543ae0e43313edf07cbc6698e144,
  0xcb417a646d59f652aa5a07984066d026,
  0xf028de8dd616318735bd8f76de7bb84e,
  0x2e03a12472d21599f15b4bcaa9bf186c,
  0x54a376cc03e5b2cfa27d8e48d1b9ca76,
  0xd22894c253031b1b201b87da07cb58ae,
  0x6bc1416afea6308ff77d902dd5d2a563,
  0x9958ecd28adbebf850055f8ac3095121,
  0x595a1b37062233d7e6bb6f54c227fb91,
  0x41ffcfcdda4583c4f671558ee315d809,
  0x780c2490f3e5cb4763e982ec4b3e6ea2,
  0xf7a450b35931fa76722a6b9037b6db34,
  0xe21991100e84821328592772430ad07e,
  0x360d4079f62863cc60c65ec87d6f9277,
  0xd898bfa0b076cc4eaca590e7a60dbe92,
  0xcaacddd5e114fe5c2e1647fc34b549bf,
  0x3042e34911c28e90617776ddb2d3f888,
  0x3728a3b0da53cdfecfd8455b13cb9b14,
  0x2f2eb3d5bc7b2c48a7c643bffbddc6b2,
  0x3b71a5c04010c0aa501b04302706b908,
  0x0701845b090e79bb9be54df766e48c51,
  0x1e9eac7bf45b14c8db06fcfff7408f78,
  0x6b1b8e39a339423d0eb3bef69eee8b0b,
  0x8b06616385967df95d3a99cff1edcf0a,
  0x5d921137890a3ded58e1dd1a51fe6a30,
  0x828ed6fba42805b2628b705d38121acc,
  0x9b7a95220e9d5b0ff70ecb6116cabd81,
  0x0eb9055cb11711ed047f136cab751c88,
  0xd6f590777c17a6d0ca451290f7d5c78a,
  0x401a922a6461fbe691f910cb0893e71f,
  0x15a549308bc53902c927ebad9ed253f7,
  0x45dccafc72a584480f340a43f11a1b84,
  0x19d2a2c057d60656e6d3e20451335d5b,
  0x035af143a5827a0f99197c8b9a811454,
  0x7ee35d174ad7cc692191fd0e013f163a,
  0xc4c0401d841f965c9599fac8831effa9,
  0x63e809a843fc04f84acfca3fc5630691,
  0xdb2f3301594e3de49fb7d78e2d6643c4,
  0x1b31772535984ef93d709319cc130a7c,
  0x036dc9c884cd6d6c918071b62a0593f3,
  0x4700cd0e81c88045132360b078027103,
  0xdfa3f35eb236ea63b0350e17ed2d625d,
  0xf0fd7c7760099f1ac28be91822978e15,
  0x852a1eba3ad160e95034e9eed1f21205,
  0x4a07dd461892df45ca9efee1701763c3,
  0xadbbaa0add4c82fe85fd61b42f707384,
  0x5c63d0673f33c0f2c231db13f0e15600,
  0x24ddc1516501135626e0e794dd4b3076,
  0xb60c601bbf72924e38afd02d201fb05b,
  0x2ef68918f416caca84334bcf70649aeb,
  0x0b72a3124c504bcad815534c707343f2,
  0xcfd8b2076040c43d5d396f8523d80fe0,
  0x098d9daf64154a63504192bb27cc65e1,
  0x3ae44070642e6720283621f8fb6a6704,
  0x19cd9b2843d0ff936bfe2b373f47fd05,
  0x451e2e4159c78e65db10450431d26122,
  0x797b753e29b9d0e9423b36807c70f3ae,
  0xa8d0e8ba9bb634f6ea30600915664e22,
  0xdf8c74bbd66f86809c504cb944475b0a,
  0x32831a457ced3a417a5a94d498128018,
  0x1aca728985936a6147119b9b5f00350e,
  0x6f436d64b4ee1a556b66764ed05bb1db,
  0x25930eaed3fd982915e483cb21e5a1a2,
  0x21735f5eb346e56006bf1d7e151780ab,
  0x55fc6f607f10e17f805eb16d7bd5345c,
  0x4b4d289591f878114965292af4aeb57e,
  0x30608bc7444bcbaff67998c1883c1cf3,
  0xa12a72abe4152e4a657c6e6395404343,
  0x7579186d4e0959dec73f9cd68fb0e2fb,
  0xb5560ce63f7894cc965c822892b7bfda,
  0x6b06d7165072861eba63d9fd645995d7,
  0x359f439f5ec9107dde3c8ef8f9bf4e29,
  0xcbfe7985c6006a46105821cd8b55b06b,
  0x2110b3b51f5397ef1129fb9076474061,
  0x1928478b6f3275c944c33b275c388c47,
  0x23f978e6a0a54802437111aa4652421a,
  0xe8c526bf924dc5cd1dd32dbedd310f5b,
  0xa0ac29f901f79ed5f43c73d22a05c8e4,
  0x55e0871c6e97408f47f4635b747145ea,
  0x6c2114c3381f53667d3c2dfefd1ebcb3,
  0x42d23c18722fbd58863c3aceaaa3eef7,
  0xbb0821ab38d5de133838f8408a72fdf1,
  0x035d7239054762b131fa387773bb9153,
  0x8fa898aafe8b154f9ab652e8979139e7,
  0x6a383e5cd4a16923c658193f16cb726c,
  0x9948caa8c6cefb0182022f32ae3f68b9,
  0x8d2a8decf9855bd4df7bac577ed73b44,
  0x09c7b8300f0f984259d548c5aa959879,
  0x92e16d2d24e070efdca8b8e134047afc,
  0x47d8621457f4118aaf24877fb5031512,
  0x25576941a55f0a0c19583a966a85667f,
  0xb113cad79cd35f2e83fda3bc6285a8dc,
  0xc76968eecb2748d0c3e6318431ffe580,
  0x7211122aa7e7f6fe39e6618395b68416,
  0x88463599bf7d3e92f450d00a45146d11,
  0x6e12b7d5adf95da33bbb7f79a18ee123,
  0xe0a98ac4025bc568eaca7e7b7280ff16,
  0xc13fc79f6c35048df274057ac892ff77,
  0x93c1a3145d4e47dee39cae4de47eb505,
  0x780064be3036df98f1e5d7c53bdbd52b,
  0x48c467b5cec265628b709172ecaff561,
  0x5bbbab77ce5552ff7682094560524a7e,
  0x551537ef6048831fb128fec4e4a23a63,
  0xe7ef397fcc095ead439317a13568b284,
  0xbc5d2927eac0a720f9d75d62d92c6332,
  0x3bfeb420021f93e9b2bc992b5b59e61e,
  0xc651dc438e2f1bc64af1b7307b574ed9,
  0xbfe0a17ee2b777542a1ddb55413a4e43,
  0xa062da2427df3d1a7dfc01c05d732a32,
  0x1e4889fd72b70ecf93417ba0b085e1e8,
  0xc4f4769f4f9c2e33c26a6bf2ca842f17]

/-- `AES_TO_POLYVAL_TRANSFORMATION`, `polyval.rs:792-922`. -/
def aesToPolyvalBases : List Nat := [
  0xc2000000000000000000000000000001,
  0xe632e878241983acfe888a04c4d9a761,
  0xac11ddf4a4b79d5c48ac4c527597b579,
  0x6b9e5d3f1b690b05f3313f030e46356c,
  0x2b04f6e5ed1de8f556e7d64ddd06e9cb,
  0x31001e7abbe11a74c26378b8a5589564,
  0xa7698d9fd5f16f53cb2ea07a2e92f955,
  0xfc2bf21f1b48c91511a841fb19894992,
  0x586704bda927015fedb8ddceb7f825d6,
  0x141f1af5b6fc687390fa434e9b3df535,
  0xe2fab31ae2a86c482d15591868e50692,
  0x5b1ab4f647466009452d4152d4a2d9b7,
  0x5e0f7136a0b09b8039655d2dea094bf2,
  0x6f2075bc8788f28152a66d96ce4680bb,
  0x4140c7bd1f7aedd86b92e5fd101ee1c6,
  0xdde2a8ec4d0e54eeb5a4a25f51c6e4fa,
  0xc50e3a207f91d7cd6dd1e116d55455fb,
  0xfa1ac734a9812f783652ef8b68356a41,
  0x36513023ad98424cb71c04fe89e160a7,
  0x049537ba21f47f9b04d482dde77f1d35,
  0x62da2377f5423631f244f3eb099cf2b7,
  0x4a23f578b5ea2846dcc6c290ef1e8aaa,
  0x6e95c9eedf7f47b3d594d365d23f0664,
  0xd2a1e8b6757668d5c29a321b50d6f02d,
  0xf4400f37acedc7d9502abeff6cead84c,
  0xf200b20bda2bad094b52961d78c3b76d,
  0x6d80e955976082ba5db58a84889d3418,
  0x44c1b7aca2c318b69501d626d8e3e1be,
  0xfc140c4a4801a6f1ca47bea4142a8e09,
  0xe7dc049975b85a68922acd362cba0aae,
  0x0d2181f080634f18c69d05ea5068dcc7,
  0x66b185642341f6a71c11a443ec30bcfa,
  0xa26153cb8c150af8243ecbd46378e59e,
  0x8f3b44831e624145fb0b4dffddbd0338,
  0x238a42154a23b1278ba6133fa32887d2,
  0xaea5e0bd0f23bb3755ca8a198e51a02c,
  0x382af0a162eb58f6888bd591d34850ee,
  0x7c7ab1035fd703fdaef544d7f152f9ff,
  0xd81f70c2928c2a2e45c3ff8900f225b7,
  0x05d5f641d32186b75064f07fefaade44,
  0x00a3a4d8c163c95ac7ac9a5b424e1c65,
  0xdc951260493c96fca603481ab501d438,
  0x99400402d352c6a6879277fa8e022149,
  0x3bebf7af750eace1e434f9a5925288ee,
  0x9f171f736eff43513721ae2942afe01d,
  0xe3e184abe50f7387c5fdd01faf6c95d3,
  0x1fae32af2dc4238dcce57975be1b2400,
  0x282116c0f04b6707698f1ea25790ea10,
  0x564032a0d5d3773b7b7ed18bebf1c668,
  0xe40d8bdaad8fdd00b3f004e706e35b10,
  0x675892c7e2ead5594ef74c71079069d2,
  0x25e285580c933861739d2b031eb4b2d3,
  0x51e78b32d4dd25445b2d1f30689d6abb,
  0x133994dbfd8ce08ae714538d557eb150,
  0x278247597906a3b1f990119cde5ffb24,
  0xef387e28a39a63ed81710b9bdbc74005,
  0x41bbc7902188f4e9880f1d81fa580ffb,
  0x415afa934ada855ba61bbef36d27db58,
  0xe477f6fac6a1c2057662a149aa0ae061,
  0xe98aee0eeb136ee02e2be740d058fe5d,
  0x777ead11e8dc98c5ffd710b823fc5093,
  0xa4e9927e7da484643651b5532106b1e3,
  0x9fdfc576fcf0b33b829f1a052e9355f2,
  0x342bbe0ad297a239b415fc050f1a23f7,
  0x756209f0893e96877833c194b9c943a0,
  0xc763ed07e05784c3ca283e12f9f22368,
  0xb04147b7592c8c80508e1ee45b2c4806,
  0x4f0557d1988f518b39bd6fc3c2fba372,
  0x7259d355775035632bfb7b003178ae0e,
  0x7826c6a2e9e37bbd991ef41faa246832,
  0x4d12f861b14f57602cd121d6622efcf6,
  0x47979b6dc50802e344b543260f9f14e4,
  0xf330cd9a74a5e884988c3f36567d26f4,
  0xb9d4fca088a982f6a9add501644e56b2,
  0xee9e3f0fbab5cc33378947fd04769519,
  0x0819f0cb4253a5ab7cb10f583ce13537,
  0x0ba10d161c76ba69a4b68d140886097a,
  0x7850cec4236f7ea4698d1b15707a8bf8,
  0x5a712763179ba0a99e8bbe5e3b73146f,
  0x8d825f45c33f7a1f45be2e3938a0fcfc,
  0xf8f3c35c671bac841b14381a592e6cdd,
  0x96d15acd59e4c4852735c30c972140ee,
  0x87d0c6a97af12deec54ecfd097c5a4ff,
  0x4152fe90327dcbe147e8771ba0334ba1,
  0xb6793169bc400bfc14ed05b58db2b472,
  0x071df72b3ce39b686d6f52b53e608c7a,
  0xcf97a03df90400718aff5257888970f5,
  0xa05e7602d3f74d882329c158a0ad9f37,
  0x69d3b9b1d9483174b3c38d8f95ce7a5f,
  0x54882e1b0f3f749397cbeff7c70f0c73,
  0x1df3271f8f5398ff2937a4f0fd041cfa,
  0xc964a4d09783b7483c1845943333022b,
  0x64991e811d81abc5cef407bebff096bd,
  0x12a6345cacc97a7992ad6647c2833af8,
  0xe04112ac095f1c67b9792b0fb82cc4fe,
  0x744c1206d550d565d994fe159c5cd699,
  0xcd8b92c8a6e0e65e167a2b851f32fd9c,
  0x994beaf6226f215c7b4187e0c36e08a6,
  0x71d346897647348c7eb7752a3a893424,
  0xb0f49cce03da921b5f8999cc18311b43,
  0x45b6960f54a16e547a329f79210629d0,
  0x4535377d8b9718b1f6991e57fea36922,
  0xbf97b9a9bda638f42cc98233021d69fd,
  0x02e346c80352ad186c77b88c9f9317d0,
  0x2eae07273b8c4fc5cef553a4a46cde5b,
  0x86c51811ef12c72fcabfc51b2a2e0c2a,
  0x8a828ea9f6b97e5c3b0b4c6faed116e6,
  0x0f69898966b112c45f01e70a26142623,
  0x109173f0af80af37cf9d6ef791d2feed,
  0x984655091ad81e2befa87a6688ddc784,
  0x21851b1a985e40395abe3d15fff2d770,
  0x045610d75e4ee7b53deb1c4149179a3a,
  0x3c37dbe331de4b0dc2f5db315d5e7fda,
  0x09ca74968860fc3d723b7966d8574ce1,
  0x8892f14b27f8e4d1b01efa51eeaa4ad4,
  0xc7339f4d332b0fa99f58a62453d76401,
  0xfc81ac07b51d1d165b5525b77bf5f969,
  0x7bdcb39270e3891d486160e47bc4015c,
  0x7967964f6e9d62b6b50a50ee51c927d2,
  0xd11b8526eed516e3dfa7b8e2b17bbf40,
  0xe47b83247cb2b162c7d6d15c84cca8ce,
  0x5136c420c1a70a4b697e000c637ec876,
  0x2114cffeda72b157abb70ae549b39e97,
  0x7f72edec22f7d7caac7b78cbca5ce3bb,
  0xfb5ac3eb65636373828e242c79ef5046,
  0x8819e336afff44542a76ee524a033645,
  0x8be0251a2790b20b19f6343efaf425e7,
  0x2a49adc1114d5dcf91783fafe0542c8a]

/-- `POLYVAL_TO_AES_TRANSFORMARION`, `polyval.rs:930-1060`. -/
def polyvalToAesBases : List Nat := [
  0xaffaa99fa8aa55f93974735e68d0882a,
  0x402655567dde6c49c7aea09cc7d73e01,
  0x83d724035fe42d2bd4ad27c1ad3be9ae,
  0x39940944fe609647237fb001386aff50,
  0xce1a381a1790a4d70cbbd7389dd705cd,
  0x0ca7f0b9fdade73367e9d9ba5ac3cfbe,
  0x70a744fa2401c4fddb871879d718ee08,
  0x275ddf74916ecd03aa3c243f74bf3461,
  0xcedb8685d1e86e6a74b79cd21c271a02,
  0x7a451fd334177a5bdb9e82c9fa373e88,
  0xcd4617d8c786c2a3824ae7335ec6b418,
  0x32feae47f77fa9c6bb6b917fbb2d96d7,
  0xcb2fef14aeabf5b41cfd3ab6774c95b7,
  0x3029123a0510641d238bea4746cd5e4b,
  0xcfdc169c294eec4bb1eab4bc88a505de,
  0x139206e1ace72eed8b9d52fc020e2d9f,
  0x891e28b32d8a8320a0a2eb295953bc42,
  0xb8704d0efb4be36ea6282c5aaf67fa9e,
  0x272f2013fe10244185ad0d672eafa581,
  0x28614505a9df5f55ef5bb97c4521eace,
  0x6dbdd43dcc19626629ac7f2638e73fff,
  0x4d687c2abd4aba97692db8c2a4eb267c,
  0x19613bca40bd82828d8255f50d271135,
  0xf2772ff3c8d95eb9252d8bd01419641e,
  0x6611a71908f4aac4fdb11c08cbedfc8c,
  0x10ad82530c31e3a8f757424dca80798a,
  0x2fc9972bf59fe5c624714cb8466249ed,
  0x9c5c3d8b954a27231e16e4a77fbe4369,
  0x2565fdbb105f787cccddf28b530af4ee,
  0x473e8ad3e0e8e46e611080cc9350a590,
  0x525d2e9d24611e2aa37a1d9a2d42377d,
  0x4967e7d5067c2ace89648bf6d95de637,
  0x2689f814fa63c8a16ddf2374eeb7c3e7,
  0x5e9246c3d2cab88ba27d7cf8ba18c4b4,
  0x53616806f5402bc897499fac6e27da63,
  0x6c6dbb145a21d1c2d87a93e779f87aba,
  0x0f7164762ed37685fd82b05e800cebec,
  0x0d01e8acede09d57da4a7325af4b04fc,
  0x336b892198ac639af40c74c9252eb99c,
  0xf282b8b368b39203e0bbe6246b1b0951,
  0x090ca21ee9872dc5a00e669729a69750,
  0xa037d253b55003a611faf883fcc8f35e,
  0xe4b8a9796561b1ba1f0970a0b26f832a,
  0xda203a31e0d6ace125e027a2df265b59,
  0xe0ebb1a107ded2a6b0916eff84c18fb4,
  0xa9998b7d2cded9a5269f6f8b25147b08,
  0x2e8337dd13a279f78ac5d327ec36f632,
  0x6264c35e09c7b3bc9b80aa886b194025,
  0x9ff92674cc64e8c2e1ee5093298382e8,
  0x3e196976f0a90cf1f71847b0fce3a0ac,
  0xbdad299364e420e1663e2c09db59634d,
  0x9046a0de7ea82a4e8c8a75e001bfdf0e,
  0xc6762e8ee83287a13a66789ae533c938,
  0x1e17ed399374b0c47e9726bfc71e0c8a,
  0xf46ce30110ce034b6a0ba8b8d0af93c6,
  0x825f7d3cef67cec50370363e2a6e502c,
  0xbdfe9b9ae82bfeff8a58710addb13695,
  0x23002be0599a589f6e30a3069cbc71bd,
  0x4468951dba52ab1e06efe0dea6d01fa0,
  0x28752c7da3ed6a83ca09163f3186b862,
  0xe9dd33560ea4a316fdee161ba4946fb1,
  0x7e0df8223f37449f266bc8fa70de1ecb,
  0x88578550f872e4c8e975a2b66c70cde8,
  0xa11ea5aebfe37694ca5ff46e28faf100,
  0x3df877fc12016ef181fbf63bf87f5e7c,
  0x0a5ca382e7cc37ceb234a5d08d3206ac,
  0x6d24b53f98df2626e8e37f977013dbaa,
  0x51cc686f72fd7f264962407270cd9394,
  0x9749ba0da32ec603a0b342e93049e1fb,
  0xed05d63413627e1efd2f3757802a12fa,
  0x0e4b2e70136dae8d61528cc479f3aeb0,
  0x3e2bda6193a5c936f2c8dc53bf2375b1,
  0x9f336d2f107bb812f4d39fb05f19a231,
  0x9d21c1be60eba516920f52582c709535,
  0x39a51756da0aee24ab5ea3ed62afce31,
  0x4404c057a9425458d7fd72eb9e23ac50,
  0xe2e5839f2ca60e2f20ad3b15676f583f,
  0x8326ccb5e936f3a223d2dada1c00efe0,
  0x4293fe13b61b834cf2af7ccea5ac07f4,
  0x3c36e03518756760624be5278c4ad469,
  0x8ccd1c1dbb224aa30ce78e9062de5884,
  0x4c7442a391d3fa91581d07fe2114eea1,
  0x7f73613a8ac49cd2c31260dd9835b790,
  0x5ea3097b9e7f2734249d6777b4028f95,
  0xd4ddcc844b626d7e122c431e3a2e9393,
  0xc19d3ffeceed10457bbfd7a9b9064779,
  0xb7f15cf7bf9c3b2a87a1e461370be7f5,
  0xf20ca8dffdcc5433561e487513103aa8,
  0xef6a936a1d9bd32d4502b8c4c5e7ce60,
  0x27c89de97a00f322d3118c2b094c06f2,
  0x8cd3bbb73240861ad260798b7c232ea2,
  0x3e61230942e2c19b9ecb0f80a1b20423,
  0x30c59cf7d564c2bc9371d28522419283,
  0x17c781e73773c72b8e18d0e6f85fe1ac,
  0xd58960c501256b149802cd19ddb19a4b,
  0x4cfb558f43862eb923981eacc0719fab,
  0xff8c63cbb23240af2d02d0c875335abb,
  0x9219023fcc6c5b1154020e9685681b25,
  0x57ec8c84b214456eb2b2c42e08cc7529,
  0xbda0ccb3b1231f075f78b27dcd578a40,
  0xb9396785c80962cfdb0a4117868ab3f6,
  0xf3b2bea115d44e307a113ebfdf27ccff,
  0x66c226397a967901e4bc6ce235bf4feb,
  0x05dd05a7c5e9ac15442189f090a80f9e,
  0xed7bea5ee1e167921014c2c7853a679d,
  0x37fafed03dfb701af939eafaeeb02074,
  0x23491f63f098d208343d5591b7bd626f,
  0x3cf04e2f641c505c3e110e87f3e9af91,
  0x076e26a8d7181c6de575685a1fe939f9,
  0x7b4e4f1b2780c2a5cbf75fe85fc94a58,
  0xccd26fddd8f624c8b3f7a2e53a0ae8df,
  0xb422ef66e72dbe3798fda5509f63fed2,
  0x436f0b1488c5a0680f57919dd4b8fa30,
  0xfb3808c6bcacc74fab269021cc58c9df,
  0x77bf7b6affefb00594c0b1209a37c97d,
  0x36776863a0ce234546d735734b90b7b1,
  0x9c0013e65e524467294aa8c70ff414dc,
  0xc2c6aeb796ca121f09708acca73499a2,
  0xac57847d964c41c97ce4ed9fa3417e90,
  0x4c62531aa3c2e5320761c8c64b690e1e,
  0xf61ab3912aed1d889336ded4ef4fbae8,
  0x5aa06080ab76d88dc5a8a01f48d11ee2,
  0x0fc8b68dbc323616ba5a66dcac10f733,
  0x7afcf993b86c827a7e290b5e21f0ce48,
  0xe7fbd490470b7d4ddd8ef44c2f0ece93,
  0xd51ff53d804403832d740176a0cddde2,
  0x33c2b575cc0be097362f21d506e9fa17,
  0xc6987c6acfd76de3caf3f29426e86cde]

/-- `POLYVAL_NIBBLE_POW_2_N_TABLE[0]`, `packed_polyval_128.rs:195-3664`. -/
def nibblePow0 : List (List Nat) := [
  [0x0, 0xc2000000000000000000000000000001,
   0x7600000000000000000000000000001b, 0xb400000000000000000000000000001a,
   0x680000000000000000000000000001b4, 0xaa0000000000000000000000000001b5,
   0x1e0000000000000000000000000001af, 0xdc0000000000000000000000000001ae,
   0x4a000000000000000000000000001b45, 0x88000000000000000000000000001b44,
   0x3c000000000000000000000000001b5e, 0xfe000000000000000000000000001b5f,
   0x22000000000000000000000000001af1, 0xe0000000000000000000000000001af0,
   0x54000000000000000000000000001aea, 0x96000000000000000000000000001aeb],
  [0x0, 0x2c00000000000000000000000001b456,
   0x860000000000000000000000001b4563, 0xaa0000000000000000000000001af135,
   0xba000000000000000000000001b4563d, 0x96000000000000000000000001b5e26b,
   0x3c000000000000000000000001af135e, 0x10000000000000000000000001aea708,
   0xfe00000000000000000000001b4563df, 0xd200000000000000000000001b44d789,
   0x7800000000000000000000001b5e26bc, 0x5400000000000000000000001b5f92ea,
   0x4400000000000000000000001af135e2, 0x6800000000000000000000001af081b4,
   0xc200000000000000000000001aea7081, 0xee00000000000000000000001aebc4d7],
  [0x0, 0x320000000000000000000001b4563df9,
   0xa4000000000000000000001b4563df92, 0x96000000000000000000001af135e26b,
   0xdc00000000000000000001b4563df92e, 0xee00000000000000000001b5e26bc4d7,
   0x7800000000000000000001af135e26bc, 0x4a00000000000000000001aea7081b45,
   0x540000000000000000001b4563df92ea, 0x660000000000000000001b44d789af13,
   0xf00000000000000000001b5e26bc4d78, 0xc20000000000000000001b5f92ea7081,
   0x880000000000000000001af135e26bc4, 0xba0000000000000000001af081b4563d,
   0x2c0000000000000000001aea7081b456, 0x1e0000000000000000001aebc4d789af],
  [0x0, 0xe000000000000000001b4563df92ea7,
   0xe000000000000000001b4563df92ea70, 0xee00000000000000001af135e26bc4d7,
   0x100000000000000001b4563df92ea708, 0x1e0000000000000001b5e26bc4d789af,
   0xf00000000000000001af135e26bc4d78, 0xfe0000000000000001aea7081b4563df,
   0xc2000000000000001b4563df92ea7081, 0xcc000000000000001b44d789af135e26,
   0x22000000000000001b5e26bc4d789af1, 0x2c000000000000001b5f92ea7081b456,
   0xd2000000000000001af135e26bc4d789, 0xdc000000000000001af081b4563df92e,
   0x32000000000000001aea7081b4563df9, 0x3c000000000000001aebc4d789af135e],
  [0x0, 0x7600000000000001b4563df92ea7081b,
   0x680000000000001b4563df92ea7081b4, 0x1e0000000000001af135e26bc4d789af,
   0x4a000000000001b4563df92ea7081b45, 0x3c000000000001b5e26bc4d789af135e,
   0x22000000000001af135e26bc4d789af1, 0x54000000000001aea7081b4563df92ea,
   0x2c00000000001b4563df92ea7081b456, 0x5a00000000001b44d789af135e26bc4d,
   0x4400000000001b5e26bc4d789af135e2, 0x3200000000001b5f92ea7081b4563df9,
   0x6600000000001af135e26bc4d789af13, 0x1000000000001af081b4563df92ea708,
   0xe00000000001aea7081b4563df92ea7, 0x7800000000001aebc4d789af135e26bc],
  [0x0, 0x860000000001b4563df92ea7081b4563,
   0xba000000001b4563df92ea7081b4563d, 0x3c000000001af135e26bc4d789af135e,
   0xfe00000001b4563df92ea7081b4563df, 0x7800000001b5e26bc4d789af135e26bc,
   0x4400000001af135e26bc4d789af135e2, 0xc200000001aea7081b4563df92ea7081,
   0x320000001b4563df92ea7081b4563df9, 0xb40000001b44d789af135e26bc4d789a,
   0x880000001b5e26bc4d789af135e26bc4, 0xe0000001b5f92ea7081b4563df92ea7,
   0xcc0000001af135e26bc4d789af135e26, 0x4a0000001af081b4563df92ea7081b45,
   0x760000001aea7081b4563df92ea7081b, 0xf00000001aebc4d789af135e26bc4d78],
  [0x0, 0xa4000001b4563df92ea7081b4563df92,
   0xdc00001b4563df92ea7081b4563df92e, 0x7800001af135e26bc4d789af135e26bc,
   0x540001b4563df92ea7081b4563df92ea, 0xf00001b5e26bc4d789af135e26bc4d78,
   0x880001af135e26bc4d789af135e26bc4, 0x2c0001aea7081b4563df92ea7081b456,
   0xe001b4563df92ea7081b4563df92ea7, 0xaa001b44d789af135e26bc4d789af135,
   0xd2001b5e26bc4d789af135e26bc4d789, 0x76001b5f92ea7081b4563df92ea7081b,
   0x5a001af135e26bc4d789af135e26bc4d, 0xfe001af081b4563df92ea7081b4563df,
   0x86001aea7081b4563df92ea7081b4563, 0x22001aebc4d789af135e26bc4d789af1],
  [0x0, 0xe001b4563df92ea7081b4563df92ea70,
   0x101b4563df92ea7081b4563df92ea708, 0xf01af135e26bc4d789af135e26bc4d78,
   0xc3b4563df92ea7081b4563df92ea7081, 0x23b5e26bc4d789af135e26bc4d789af1,
   0xd3af135e26bc4d789af135e26bc4d789, 0x33aea7081b4563df92ea7081b4563df9,
   0x6d4563df92ea7081b4563df92ea7081b, 0x8d44d789af135e26bc4d789af135e26b,
   0x7d5e26bc4d789af135e26bc4d789af13, 0x9d5f92ea7081b4563df92ea7081b4563,
   0xaef135e26bc4d789af135e26bc4d789a, 0x4ef081b4563df92ea7081b4563df92ea,
   0xbeea7081b4563df92ea7081b4563df92, 0x5eebc4d789af135e26bc4d789af135e2],
  [0x0, 0x1e563df92ea7081b4563df92ea7081b5,
   0x2763df92ea7081b4563df92ea7081b51, 0x3935e26bc4d789af135e26bc4d789ae4,
   0x303df92ea7081b4563df92ea7081b513, 0x2e6bc4d789af135e26bc4d789af134a6,
   0x175e26bc4d789af135e26bc4d789ae42, 0x9081b4563df92ea7081b4563df92ff7,
   0x87df92ea7081b4563df92ea7081b5132, 0x9989af135e26bc4d789af135e26bd087,
   0xa0bc4d789af135e26bc4d789af134a63, 0xbeea7081b4563df92ea7081b4563cbd6,
   0xb7e26bc4d789af135e26bc4d789ae421, 0xa9b4563df92ea7081b4563df92ea6594,
   0x9081b4563df92ea7081b4563df92ff70, 0x8ed789af135e26bc4d789af135e27ec5],
  [0x0, 0xa7f92ea7081b4563df92ea7081b5132d,
   0xe392ea7081b4563df92ea7081b5132de, 0x446bc4d789af135e26bc4d789ae421f3,
   0x292ea7081b4563df92ea7081b5132de8, 0x8ed789af135e26bc4d789af134a63ec5,
   0xcabc4d789af135e26bc4d789ae421f36, 0x6d4563df92ea7081b4563df92ff70c1b,
   0xd4ea7081b4563df92ea7081b5132de83, 0x73135e26bc4d789af135e26bd087cdae,
   0x37789af135e26bc4d789af134a63ec5d, 0x9081b4563df92ea7081b4563cbd6ff70,
   0xfdc4d789af135e26bc4d789ae421f36b, 0x5a3df92ea7081b4563df92ea6594e046,
   0x1e563df92ea7081b4563df92ff70c1b5, 0xb9af135e26bc4d789af135e27ec5d298],
  [0x0, 0xdaa7081b4563df92ea7081b5132de83a,
   0x3e7081b4563df92ea7081b5132de83aa, 0xe4d789af135e26bc4d789ae421f36b90,
   0x63081b4563df92ea7081b5132de83aa2, 0xb9af135e26bc4d789af134a63ec5d298,
   0x5d789af135e26bc4d789ae421f36b908, 0x87df92ea7081b4563df92ff70c1b5132,
   0xfa81b4563df92ea7081b5132de83aa25, 0x2026bc4d789af135e26bd087cdae421f,
   0xc4f135e26bc4d789af134a63ec5d298f, 0x1e563df92ea7081b4563cbd6ff70c1b5,
   0x9989af135e26bc4d789ae421f36b9087, 0x432ea7081b4563df92ea6594e04678bd,
   0xa7f92ea7081b4563df92ff70c1b5132d, 0x7d5e26bc4d789af135e27ec5d298fb17],
  [0x0, 0x7a1b4563df92ea7081b5132de83aa259,
   0xa9b4563df92ea7081b5132de83aa2594, 0xd3af135e26bc4d789ae421f36b9087cd,
   0x74563df92ea7081b5132de83aa2594e, 0x7d5e26bc4d789af134a63ec5d298fb17,
   0xaef135e26bc4d789ae421f36b9087cda, 0xd4ea7081b4563df92ff70c1b5132de83,
   0x74563df92ea7081b5132de83aa2594e0, 0xe4d789af135e26bd087cdae421f36b9,
   0xdde26bc4d789af134a63ec5d298fb174, 0xa7f92ea7081b4563cbd6ff70c1b5132d,
   0x73135e26bc4d789ae421f36b9087cdae, 0x9081b4563df92ea6594e04678bd6ff7,
   0xdaa7081b4563df92ff70c1b5132de83a, 0xa0bc4d789af135e27ec5d298fb174a63],
  [0x0, 0x4d63df92ea7081b5132de83aa2594e04,
   0x5a3df92ea7081b5132de83aa2594e046, 0x175e26bc4d789ae421f36b9087cdae42,
   0xeddf92ea7081b5132de83aa2594e0467, 0xa0bc4d789af134a63ec5d298fb174a63,
   0xb7e26bc4d789ae421f36b9087cdae421, 0xfa81b4563df92ff70c1b5132de83aa25,
   0xcdf92ea7081b5132de83aa2594e04678, 0x809af135e26bd087cdae421f36b9087c,
   0x97c4d789af134a63ec5d298fb174a63e, 0xdaa7081b4563cbd6ff70c1b5132de83a,
   0x2026bc4d789ae421f36b9087cdae421f, 0x6d4563df92ea6594e04678bd6ff70c1b,
   0x7a1b4563df92ff70c1b5132de83aa259, 0x37789af135e27ec5d298fb174a63ec5d],
  [0x0, 0x8992ea7081b5132de83aa2594e04678b,
   0x432ea7081b5132de83aa2594e04678bd, 0xcabc4d789ae421f36b9087cdae421f36,
   0xbeea7081b5132de83aa2594e04678bd6, 0x37789af134a63ec5d298fb174a63ec5d,
   0xfdc4d789ae421f36b9087cdae421f36b, 0x74563df92ff70c1b5132de83aa2594e0,
   0xb0a7081b5132de83aa2594e04678bd6f, 0x3935e26bd087cdae421f36b9087cdae4,
   0xf389af134a63ec5d298fb174a63ec5d2, 0x7a1b4563cbd6ff70c1b5132de83aa259,
   0xe4d789ae421f36b9087cdae421f36b9, 0x87df92ea6594e04678bd6ff70c1b5132,
   0x4d63df92ff70c1b5132de83aa2594e04, 0xc4f135e27ec5d298fb174a63ec5d298f],
  [0x0, 0x547081b5132de83aa2594e04678bd6ff,
   0x9081b5132de83aa2594e04678bd6ff7, 0x5d789ae421f36b9087cdae421f36b908,
   0x9081b5132de83aa2594e04678bd6ff70, 0xc4f134a63ec5d298fb174a63ec5d298f,
   0x9989ae421f36b9087cdae421f36b9087, 0xcdf92ff70c1b5132de83aa2594e04678,
   0x101b5132de83aa2594e04678bd6ff70c, 0x446bd087cdae421f36b9087cdae421f3,
   0x19134a63ec5d298fb174a63ec5d298fb, 0x4d63cbd6ff70c1b5132de83aa2594e04,
   0x809ae421f36b9087cdae421f36b9087c, 0xd4ea6594e04678bd6ff70c1b5132de83,
   0x8992ff70c1b5132de83aa2594e04678b, 0xdde27ec5d298fb174a63ec5d298fb174],
  [0x0, 0xc3b5132de83aa2594e04678bd6ff70c1,
   0x6d5132de83aa2594e04678bd6ff70c1b, 0xaee421f36b9087cdae421f36b9087cda,
   0x1f132de83aa2594e04678bd6ff70c1b5, 0xdca63ec5d298fb174a63ec5d298fb174,
   0x72421f36b9087cdae421f36b9087cdae, 0xb1f70c1b5132de83aa2594e04678bd6f,
   0x3332de83aa2594e04678bd6ff70c1b51, 0xf087cdae421f36b9087cdae421f36b90,
   0x5e63ec5d298fb174a63ec5d298fb174a, 0x9dd6ff70c1b5132de83aa2594e04678b,
   0x2c21f36b9087cdae421f36b9087cdae4, 0xef94e04678bd6ff70c1b5132de83aa25,
   0x4170c1b5132de83aa2594e04678bd6ff, 0x82c5d298fb174a63ec5d298fb174a63e],
  [0x0, 0xb72de83aa2594e04678bd6ff70c1b512,
   0x2cde83aa2594e04678bd6ff70c1b512f, 0x9bf36b9087cdae421f36b9087cdae43d,
   0x8be83aa2594e04678bd6ff70c1b512f3, 0x3cc5d298fb174a63ec5d298fb174a7e1,
   0xa736b9087cdae421f36b9087cdae43dc, 0x101b5132de83aa2594e04678bd6ff6ce,
   0x6483aa2594e04678bd6ff70c1b512f3d, 0xd3ae421f36b9087cdae421f36b909a2f,
   0x485d298fb174a63ec5d298fb174a7e12, 0xff70c1b5132de83aa2594e04678bcb00,
   0xef6b9087cdae421f36b9087cdae43dce, 0x584678bd6ff70c1b5132de83aa2588dc,
   0xc3b5132de83aa2594e04678bd6ff6ce1, 0x7498fb174a63ec5d298fb174a63ed9f3],
  [0x0, 0x823aa2594e04678bd6ff70c1b512f3d5,
   0xf9aa2594e04678bd6ff70c1b512f3d5d, 0x7b9087cdae421f36b9087cdae43dce88,
   0x48a2594e04678bd6ff70c1b512f3d5d9, 0xca98fb174a63ec5d298fb174a7e1260c,
   0xb1087cdae421f36b9087cdae43dce884, 0x3332de83aa2594e04678bd6ff6ce1b51,
   0x62594e04678bd6ff70c1b512f3d5d96, 0x841f36b9087cdae421f36b909a2fae43,
   0xff8fb174a63ec5d298fb174a7e1260cb, 0x7db5132de83aa2594e04678bcb00931e,
   0x4e87cdae421f36b9087cdae43dce884f, 0xccbd6ff70c1b5132de83aa2588dc7b9a,
   0xb72de83aa2594e04678bd6ff6ce1b512, 0x35174a63ec5d298fb174a63ed9f346c7],
  [0x0, 0x62594e04678bd6ff70c1b512f3d5d960,
   0xef94e04678bd6ff70c1b512f3d5d9605, 0x8dcdae421f36b9087cdae43dce884f65,
   0xe94e04678bd6ff70c1b512f3d5d96058, 0x8b174a63ec5d298fb174a7e1260cb938,
   0x6dae421f36b9087cdae43dce884f65d, 0x6483aa2594e04678bd6ff6ce1b512f3d,
   0x84e04678bd6ff70c1b512f3d5d960588, 0xe6b9087cdae421f36b909a2fae43dce8,
   0x6b74a63ec5d298fb174a7e1260cb938d, 0x92de83aa2594e04678bcb00931e4aed,
   0x6dae421f36b9087cdae43dce884f65d0, 0xff70c1b5132de83aa2588dc7b9abcb0,
   0x823aa2594e04678bd6ff6ce1b512f3d5, 0xe063ec5d298fb174a63ed9f346c72ab5],
  [0x0, 0x9404678bd6ff70c1b512f3d5d960588d,
   0x584678bd6ff70c1b512f3d5d960588dc, 0xcc421f36b9087cdae43dce884f65d051,
   0xca678bd6ff70c1b512f3d5d960588dc7, 0x5e63ec5d298fb174a7e1260cb938d54a,
   0x9221f36b9087cdae43dce884f65d051b, 0x62594e04678bd6ff6ce1b512f3d5d96,
   0xf078bd6ff70c1b512f3d5d960588dc7b, 0x647cdae421f36b909a2fae43dce884f6,
   0xa83ec5d298fb174a7e1260cb938d54a7, 0x3c3aa2594e04678bcb00931e4aed0c2a,
   0x3a1f36b9087cdae43dce884f65d051bc, 0xae1b5132de83aa2588dc7b9abcb00931,
   0x62594e04678bd6ff6ce1b512f3d5d960, 0xf65d298fb174a63ed9f346c72ab581ed],
  [0x0, 0xd58bd6ff70c1b512f3d5d960588dc7b9,
   0xccbd6ff70c1b512f3d5d960588dc7b9a, 0x1936b9087cdae43dce884f65d051bc23,
   0x9dd6ff70c1b512f3d5d960588dc7b9ab, 0x485d298fb174a7e1260cb938d54a7e12,
   0x516b9087cdae43dce884f65d051bc231, 0x84e04678bd6ff6ce1b512f3d5d960588,
   0xc56ff70c1b512f3d5d960588dc7b9abc, 0x10e421f36b909a2fae43dce884f65d05,
   0x9d298fb174a7e1260cb938d54a7e126, 0xdc594e04678bcb00931e4aed0c2a269f,
   0x58b9087cdae43dce884f65d051bc2317, 0x8d32de83aa2588dc7b9abcb00931e4ae,
   0x9404678bd6ff6ce1b512f3d5d960588d, 0x418fb174a63ed9f346c72ab581ed9f34],
  [0x0, 0xff70c1b512f3d5d960588dc7b9abcb,
   0xff70c1b512f3d5d960588dc7b9abcb0, 0xf087cdae43dce884f65d051bc23177b,
   0xff70c1b512f3d5d960588dc7b9abcb00, 0xff8fb174a7e1260cb938d54a7e1260cb,
   0xf087cdae43dce884f65d051bc23177b0, 0xf078bd6ff6ce1b512f3d5d960588dc7b,
   0x250c1b512f3d5d960588dc7b9abcb009, 0x25f36b909a2fae43dce884f65d051bc2,
   0x2afb174a7e1260cb938d54a7e1260cb9, 0x2a04678bcb00931e4aed0c2a269fa772,
   0xda7cdae43dce884f65d051bc23177b09, 0xda83aa2588dc7b9abcb00931e4aed0c2,
   0xd58bd6ff6ce1b512f3d5d960588dc7b9, 0xd574a63ed9f346c72ab581ed9f346c72],
  [0x0, 0x16c1b512f3d5d960588dc7b9abcb0093,
   0xae1b512f3d5d960588dc7b9abcb00931, 0xb8dae43dce884f65d051bc23177b09a2,
   0x7db512f3d5d960588dc7b9abcb00931e, 0x6b74a7e1260cb938d54a7e1260cb938d,
   0xd3ae43dce884f65d051bc23177b09a2f, 0xc56ff6ce1b512f3d5d960588dc7b9abc,
   0xd3512f3d5d960588dc7b9abcb00931e4, 0xc5909a2fae43dce884f65d051bc23177,
   0x7d4a7e1260cb938d54a7e1260cb938d5, 0x6b8bcb00931e4aed0c2a269fa7723846,
   0xaee43dce884f65d051bc23177b09a2fa, 0xb82588dc7b9abcb00931e4aed0c2a269,
   0xff6ce1b512f3d5d960588dc7b9abcb, 0x163ed9f346c72ab581ed9f346c72ab58],
  [0x0, 0xa112f3d5d960588dc7b9abcb00931e4a,
   0x8d2f3d5d960588dc7b9abcb00931e4ae, 0x2c3dce884f65d051bc23177b09a2fae4,
   0x8f3d5d960588dc7b9abcb00931e4aed, 0xa9e1260cb938d54a7e1260cb938d54a7,
   0x85dce884f65d051bc23177b09a2fae43, 0x24ce1b512f3d5d960588dc7b9abcb009,
   0x8f3d5d960588dc7b9abcb00931e4aed0, 0x2e2fae43dce884f65d051bc23177b09a,
   0x21260cb938d54a7e1260cb938d54a7e, 0xa300931e4aed0c2a269fa77238465434,
   0x87ce884f65d051bc23177b09a2fae43d, 0x26dc7b9abcb00931e4aed0c2a269fa77,
   0xae1b512f3d5d960588dc7b9abcb0093, 0xabf346c72ab581ed9f346c72ab581ed9],
  [0x0, 0x29d5d960588dc7b9abcb00931e4aed0d,
   0xdb5d960588dc7b9abcb00931e4aed0d3, 0xf2884f65d051bc23177b09a2fae43dde,
   0x21d960588dc7b9abcb00931e4aed0d3a, 0x80cb938d54a7e1260cb938d54a7e037,
   0xfa84f65d051bc23177b09a2fae43dde9, 0xd3512f3d5d960588dc7b9abcb00930e4,
   0x5b960588dc7b9abcb00931e4aed0d3a3, 0x7243dce884f65d051bc23177b09a3eae,
   0x80cb938d54a7e1260cb938d54a7e0370, 0xa91e4aed0c2a269fa77238465434ee7d,
   0x7a4f65d051bc23177b09a2fae43dde99, 0x539abcb00931e4aed0c2a269fa773394,
   0xa112f3d5d960588dc7b9abcb00930e4a, 0x88c72ab581ed9f346c72ab581ed9e347],
  [0x0, 0xf760588dc7b9abcb00931e4aed0d3a37,
   0xa40588dc7b9abcb00931e4aed0d3a379, 0x5365d051bc23177b09a2fae43dde994e,
   0xdc588dc7b9abcb00931e4aed0d3a379e, 0x2b38d54a7e1260cb938d54a7e0370da9,
   0x785d051bc23177b09a2fae43dde994e7, 0x8f3d5d960588dc7b9abcb00930e4aed0,
   0x5188dc7b9abcb00931e4aed0d3a379ea, 0xa6e884f65d051bc23177b09a3eae43dd,
   0xf58d54a7e1260cb938d54a7e0370da93, 0x2ed0c2a269fa77238465434ee7de0a4,
   0x8dd051bc23177b09a2fae43dde994e74, 0x7ab00931e4aed0c2a269fa7733947443,
   0x29d5d960588dc7b9abcb00930e4aed0d, 0xdeb581ed9f346c72ab581ed9e347d73a],
  [0x0, 0x568dc7b9abcb00931e4aed0d3a379ea7,
   0x26dc7b9abcb00931e4aed0d3a379ea77, 0x7051bc23177b09a2fae43dde994e74d0,
   0x2bc7b9abcb00931e4aed0d3a379ea773, 0x7d4a7e1260cb938d54a7e0370da939d4,
   0xd1bc23177b09a2fae43dde994e74d04, 0x5b960588dc7b9abcb00930e4aed0d3a3,
   0xfa7b9abcb00931e4aed0d3a379ea7733, 0xacf65d051bc23177b09a3eae43dde994,
   0xdca7e1260cb938d54a7e0370da939d44, 0x8a2a269fa77238465434ee7de0a403e3,
   0xd1bc23177b09a2fae43dde994e74d040, 0x8731e4aed0c2a269fa77339474434ee7,
   0xf760588dc7b9abcb00930e4aed0d3a37, 0xa1ed9f346c72ab581ed9e347d73aa490],
  [0x0, 0x75b9abcb00931e4aed0d3a379ea77339,
   0x539abcb00931e4aed0d3a379ea773394, 0x2623177b09a2fae43dde994e74d040ad,
   0x77abcb00931e4aed0d3a379ea7733947, 0x21260cb938d54a7e0370da939d44a7e,
   0x243177b09a2fae43dde994e74d040ad3, 0x5188dc7b9abcb00930e4aed0d3a379ea,
   0x72bcb00931e4aed0d3a379ea77339474, 0x7051bc23177b09a3eae43dde994e74d,
   0x21260cb938d54a7e0370da939d44a7e0, 0x549fa77238465434ee7de0a403e3d4d9,
   0x5177b09a2fae43dde994e74d040ad33, 0x70aed0c2a269fa77339474434ee7de0a,
   0x568dc7b9abcb00930e4aed0d3a379ea7, 0x23346c72ab581ed9e347d73aa490ed9e],
  [0x0, 0x23cb00931e4aed0d3a379ea773394744,
   0x7ab00931e4aed0d3a379ea7733947443, 0x597b09a2fae43dde994e74d040ad3307,
   0xa300931e4aed0d3a379ea77339474434, 0x80cb938d54a7e0370da939d44a7e0370,
   0xd9b09a2fae43dde994e74d040ad33077, 0xfa7b9abcb00930e4aed0d3a379ea7733,
   0xac0931e4aed0d3a379ea77339474434e, 0x8fc23177b09a3eae43dde994e74d040a,
   0xd6b938d54a7e0370da939d44a7e0370d, 0xf57238465434ee7de0a403e3d4d97049,
   0xf09a2fae43dde994e74d040ad33077a, 0x2cc2a269fa77339474434ee7de0a403e,
   0x75b9abcb00930e4aed0d3a379ea77339, 0x5672ab581ed9e347d73aa490ed9e347d],
  [0x0, 0x5c931e4aed0d3a379ea77339474434ee,
   0x8731e4aed0d3a379ea77339474434ee7, 0xdba2fae43dde994e74d040ad33077a09,
   0xa91e4aed0d3a379ea77339474434ee7d, 0xf58d54a7e0370da939d44a7e0370da93,
   0x2e2fae43dde994e74d040ad33077a09a, 0x72bcb00930e4aed0d3a379ea77339474,
   0xde4aed0d3a379ea77339474434ee7de, 0x5177b09a3eae43dde994e74d040ad330,
   0x8ad54a7e0370da939d44a7e0370da939, 0xd6465434ee7de0a403e3d4d970499dd7,
   0xa4fae43dde994e74d040ad33077a09a3, 0xf869fa77339474434ee7de0a403e3d4d,
   0x23cb00930e4aed0d3a379ea773394744, 0x7f581ed9e347d73aa490ed9e347d73aa],
  [0x0, 0xde4aed0d3a379ea77339474434ee7de0,
   0x70aed0d3a379ea77339474434ee7de0a, 0xaee43dde994e74d040ad33077a09a3ea,
   0x2ed0d3a379ea77339474434ee7de0a4, 0xdca7e0370da939d44a7e0370da939d44,
   0x7243dde994e74d040ad33077a09a3eae, 0xac0930e4aed0d3a379ea77339474434e,
   0x2ed0d3a379ea77339474434ee7de0a40, 0xf09a3eae43dde994e74d040ad33077a0,
   0x5e7e0370da939d44a7e0370da939d44a, 0x8034ee7de0a403e3d4d970499dd7a9aa,
   0x2c3dde994e74d040ad33077a09a3eae4, 0xf277339474434ee7de0a403e3d4d9704,
   0x5c930e4aed0d3a379ea77339474434ee, 0x82d9e347d73aa490ed9e347d73aa490e],
  [0x0, 0xab0d3a379ea77339474434ee7de0a403,
   0x2cd3a379ea77339474434ee7de0a403e, 0x87de994e74d040ad33077a09a3eae43d,
   0x8b3a379ea77339474434ee7de0a403e3, 0x20370da939d44a7e0370da939d44a7e0,
   0xa7e994e74d040ad33077a09a3eae43dd, 0xce4aed0d3a379ea77339474434ee7de,
   0x69a379ea77339474434ee7de0a403e3d, 0xc2ae43dde994e74d040ad33077a09a3e,
   0x4570da939d44a7e0370da939d44a7e03, 0xee7de0a403e3d4d970499dd7a9aada00,
   0xe2994e74d040ad33077a09a3eae43dde, 0x499474434ee7de0a403e3d4d970499dd,
   0xce4aed0d3a379ea77339474434ee7de0, 0x6547d73aa490ed9e347d73aa490ed9e3]]

/-- `POLYVAL_NIBBLE_POW_2_N_TABLE[1]`, `packed_polyval_128.rs:195-3664`. -/
def nibblePow1 : List (List Nat) := [
  [0x0, 0xc2000000000000000000000000000001,
   0x2c00000000000000000000000001b456, 0xee00000000000000000000000001b457,
   0x320000000000000000000001b4563df9, 0xf00000000000000000000001b4563df8,
   0x1e0000000000000000000001b45789af, 0xdc0000000000000000000001b45789ae,
   0xe000000000000000001b4563df92ea7, 0xcc000000000000000001b4563df92ea6,
   0x22000000000000000001b4563df89af1, 0xe0000000000000000001b4563df89af0,
   0x3c000000000000000001b45789af135e, 0xfe000000000000000001b45789af135f,
   0x10000000000000000001b45789aea708, 0xd2000000000000000001b45789aea709],
  [0x0, 0x7600000000000001b4563df92ea7081b,
   0x860000000001b4563df92ea7081b4563, 0xf00000000001b45789af135e26bc4d78,
   0xa4000001b4563df92ea7081b4563df92, 0xd2000001b4563df89af135e26bc4d789,
   0x22000001b45789af135e26bc4d789af1, 0x54000001b45789aea7081b4563df92ea,
   0xe001b4563df92ea7081b4563df92ea70, 0x9601b4563df92ea6bc4d789af135e26b,
   0x6601b4563df89af135e26bc4d789af13, 0x1001b4563df89af081b4563df92ea708,
   0x4401b45789af135e26bc4d789af135e2, 0x3201b45789af135f92ea7081b4563df9,
   0xc201b45789aea7081b4563df92ea7081, 0xb401b45789aea709af135e26bc4d789a],
  [0x0, 0x1e563df92ea7081b4563df92ea7081b5,
   0xa7f92ea7081b4563df92ea7081b5132d, 0xb9af135e26bc4d789af135e26bc59298,
   0xdaa7081b4563df92ea7081b5132de83a, 0xc4f135e26bc4d789af135e27f95d698f,
   0x7d5e26bc4d789af135e26bc59298fb17, 0x63081b4563df92ea7081b45778e87aa2,
   0x7a1b4563df92ea7081b5132de83aa259, 0x644d789af135e26bc4d6ccbf024a23ec,
   0xdde26bc4d789af135e27f95d698fb174, 0xc3b4563df92ea7081b4426cf83ff30c1,
   0xa0bc4d789af135e26bc59298fb174a63, 0xbeea7081b4563df92ea64d0a1167cbd6,
   0x74563df92ea7081b45778e87aa2594e, 0x19135e26bc4d789af134a77a90d2d8fb],
  [0x0, 0x4d63df92ea7081b5132de83aa2594e04,
   0x8992ea7081b5132de83aa2594e04678b, 0xc4f135e26bc59298fb174a63ec5d298f,
   0x547081b5132de83aa2594e04678bd6ff, 0x19135e27f95d698fb174a63ec5d298fb,
   0xdde26bc59298fb174a63ec5d298fb174, 0x9081b45778e87aa2594e04678bd6ff70,
   0xc3b5132de83aa2594e04678bd6ff70c1, 0x8ed6ccbf024a23ec5d298fb174a63ec5,
   0x4a27f95d698fb174a63ec5d298fb174a, 0x74426cf83ff30c1b5132de83aa2594e,
   0x97c59298fb174a63ec5d298fb174a63e, 0xdaa64d0a1167cbd6ff70c1b5132de83a,
   0x1e5778e87aa2594e04678bd6ff70c1b5, 0x5334a77a90d2d8fb174a63ec5d298fb1],
  [0x0, 0xb72de83aa2594e04678bd6ff70c1b512,
   0x823aa2594e04678bd6ff70c1b512f3d5, 0x35174a63ec5d298fb174a63ec5d346c7,
   0x62594e04678bd6ff70c1b512f3d5d960, 0xd574a63ec5d298fb174a63ed83146c72,
   0xe063ec5d298fb174a63ec5d346c72ab5, 0x574e04678bd6ff70c1b5132c36069fa7,
   0x9404678bd6ff70c1b512f3d5d960588d, 0x23298fb174a63ec5d299252aa9a1ed9f,
   0x163ec5d298fb174a63ed83146c72ab58, 0xa1132de83aa2594e046655eb1cb31e4a,
   0xf65d298fb174a63ec5d346c72ab581ed, 0x4170c1b5132de83aa25890385a7434ff,
   0x74678bd6ff70c1b5132c36069fa77238, 0xc34a63ec5d298fb174a7e0f9ef66c72a],
  [0x0, 0xd58bd6ff70c1b512f3d5d960588dc7b9,
   0xff70c1b512f3d5d960588dc7b9abcb, 0xd574a63ec5d346c72ab581ed9f346c72,
   0x16c1b512f3d5d960588dc7b9abcb0093, 0xc34a63ed83146c72ab581ed9f346c72a,
   0x163ec5d346c72ab581ed9f346c72ab58, 0xc3b5132c36069fa77238465434ff6ce1,
   0xa112f3d5d960588dc7b9abcb00931e4a, 0x7499252aa9a1ed9f346c72ab581ed9f3,
   0xa1ed83146c72ab581ed9f346c72ab581, 0x746655eb1cb31e4aed0c2a269fa77238,
   0xb7d346c72ab581ed9f346c72ab581ed9, 0x625890385a7434ff6ce1b512f3d5d960,
   0xb72c36069fa77238465434ff6ce1b512, 0x62a7e0f9ef66c72ab581ed9f346c72ab],
  [0x0, 0x29d5d960588dc7b9abcb00931e4aed0d,
   0xf760588dc7b9abcb00931e4aed0d3a37, 0xdeb581ed9f346c72ab581ed9f347d73a,
   0x568dc7b9abcb00931e4aed0d3a379ea7, 0x7f581ed9f346c72ab581ed9e247d73aa,
   0xa1ed9f346c72ab581ed9f347d73aa490, 0x8838465434ff6ce1b512f3d4c970499d,
   0x75b9abcb00931e4aed0d3a379ea77339, 0x5c6c72ab581ed9f346c63aa480ed9e34,
   0x82d9f346c72ab581ed9e247d73aa490e, 0xab0c2a269fa77238465524ee6de0a403,
   0x23346c72ab581ed9f347d73aa490ed9e, 0xae1b512f3d5d960588cd7a9bada0093,
   0xd45434ff6ce1b512f3d4c970499dd7a9, 0xfd81ed9f346c72ab581fc9e357d73aa4],
  [0x0, 0x23cb00931e4aed0d3a379ea773394744,
   0x5c931e4aed0d3a379ea77339474434ee, 0x7f581ed9f347d73aa490ed9e347d73aa,
   0xde4aed0d3a379ea77339474434ee7de0, 0xfd81ed9e247d73aa490ed9e347d73aa4,
   0x82d9f347d73aa490ed9e347d73aa490e, 0xa112f3d4c970499dd7a9aada00930e4a,
   0xab0d3a379ea77339474434ee7de0a403, 0x88c63aa480ed9e347d73aa490ed9e347,
   0xf79e247d73aa490ed9e347d73aa490ed, 0xd45524ee6de0a403e3d4d970499dd7a9,
   0x7547d73aa490ed9e347d73aa490ed9e3, 0x568cd7a9bada00930e4aed0d3a379ea7,
   0x29d4c970499dd7a9aada00930e4aed0d, 0xa1fc9e357d73aa490ed9e347d73aa49],
  [0x0, 0x50379ea77339474434ee7de0a403e3d5,
   0xaca77339474434ee7de0a403e3d57679, 0xfc90ed9e347d73aa490ed9e347d695ac,
   0x8739474434ee7de0a403e3d57679e73a, 0xd70ed9e347d73aa490ed9e35d27a04ef,
   0x2b9e347d73aa490ed9e347d695ac9143, 0x7ba9aada00930e4aed0d3a3631af7296,
   0x94434ee7de0a403e3d57679e73ade07, 0x5973aa490ed9e347d73b0b9943393dd2,
   0xa5e347d73aa490ed9e35d27a04efa87e, 0xf5d4d970499dd7a9aadbaf9aa0ec4bab,
   0x8e7d73aa490ed9e347d695ac9143393d, 0xde4aed0d3a379ea77338e84c3540dae8,
   0x22da00930e4aed0d3a3631af72964f44, 0x72ed9e347d73aa490ed84c4fd695ac91],
  [0x0, 0xeee7de0a403e3d57679e73ade070c7d,
   0xd9e0a403e3d57679e73ade070c7d0892, 0xd70ed9e347d695ac9143393dd27a04ef,
   0x7c03e3d57679e73ade070c7d0892a0ec, 0x72ed9e35d27a04efa87eeb47d695ac91,
   0xa5e347d695ac9143393dd27a04efa87e, 0xab0d3a3631af72964f443540dae8a403,
   0xf5d57679e73ade070c7d0892a0ec4bab, 0xfb3b0b9943393dd27a04efa87eeb47d6,
   0x2c35d27a04efa87eeb47d695ac914339, 0x22dbaf9aa0ec4bab9d3e31af72964f44,
   0x89d695ac9143393dd27a04efa87eeb47, 0x8738e84c3540dae8a403e3d57679e73a,
   0x503631af72964f443540dae8a403e3d5, 0x5ed84c4fd695ac9143393dd27a04efa8],
  [0x0, 0x4879e73ade070c7d0892a0ec4bab9d3f,
   0x513ade070c7d0892a0ec4bab9d3f60fb, 0x1943393dd27a04efa87eeb47d694fdc4,
   0x10070c7d0892a0ec4bab9d3f60fb77c7, 0x587eeb47d695ac9143393dd32b50eaf8,
   0x413dd27a04efa87eeb47d694fdc4173c, 0x9443540dae8a403e3d57678b66f8a03,
   0x4e7d0892a0ec4bab9d3f60fb77c71b41, 0x604efa87eeb47d695adc0173c6c867e,
   0x1f47d695ac9143393dd32b50eaf87bba, 0x573e31af72964f4435418bbca153e685,
   0x5e7a04efa87eeb47d694fdc4173c6c86, 0x1603e3d57679e73ade065d285c97f1b9,
   0xf40dae8a403e3d57678b66f8a030c7d, 0x47393dd27a04efa87eea1683c1a89142],
  [0x0, 0x8092a0ec4bab9d3f60fb77c71b416544,
   0xb2ec4bab9d3f60fb77c71b416544dae9, 0x327eeb47d694fdc4173c6c867e05bfad,
   0xc7ab9d3f60fb77c71b416544dae9f406, 0x47393dd32b50eaf87bba1283c1a89142,
   0x7547d694fdc4173c6c867e05bfad2eef, 0xf5d57678b66f8a030c7d09c2a4ec4bab,
   0x3d3f60fb77c71b416544dae9f406b3d0, 0xbdadc0173c6c867e05bfad2eef47d694,
   0x8fd32b50eaf87bba1283c1a891426939, 0xf418bbca153e6857278b66f8a030c7d,
   0xfa94fdc4173c6c867e05bfad2eef47d6, 0x7a065d285c97f1b91efec86a35ae2292,
   0x4878b66f8a030c7d09c2a4ec4bab9d3f, 0xc8ea1683c1a891426939d32b50eaf87b],
  [0x0, 0x38fb77c71b416544dae9f406b3d0272c,
   0x87c71b416544dae9f406b3d0272c20f8, 0xbf3c6c867e05bfad2eef47d694fc07d4,
   0xf1416544dae9f406b3d0272c20f8de95, 0xc9ba1283c1a891426939d32a9328f9b9,
   0x76867e05bfad2eef47d694fc07d4fe6d, 0x4e7d09c2a4ec4bab9d3f60fab404d941,
   0xf744dae9f406b3d0272c20f8de959b29, 0xcfbfad2eef47d694fdc5d4fe6d45bc05,
   0x7083c1a891426939d32a9328f9b9bbd1, 0x4878b66f8a030c7d09c3672e4a699cfd,
   0x605bfad2eef47d694fc07d4fe6d45bc, 0x3efec86a35ae22924e15f3d24dbd6290,
   0x81c2a4ec4bab9d3f60fab404d9416544, 0xb939d32b50eaf87bba1340026a914268],
  [0x0, 0xb4e9f406b3d0272c20f8de959b299e97,
   0x8406b3d0272c20f8de959b299e97f1b8, 0x30ef47d694fc07d4fe6d45bc05be6f2f,
   0xdd0272c20f8de959b299e97f1b8dcff, 0xb939d32a9328f9b9bbd140026a914268,
   0x89d694fc07d4fe6d45bc05be6f2f2d47, 0x3d3f60fab404d9416544db2bf406b3d0,
   0xb12c20f8de959b299e97f1b8dcff0a6b, 0x5c5d4fe6d45bc05be6f2f2d47d694fc,
   0x352a9328f9b9bbd140026a914268fbd3, 0x81c3672e4a699cfd60fab404d9416544,
   0xbcfc07d4fe6d45bc05be6f2f2d47d694, 0x815f3d24dbd62902546b1bab66e4803,
   0x38fab404d9416544db2bf406b3d0272c, 0x8c1340026a914268fbd32a9328f9b9bb],
  [0x0, 0x3af8de959b299e97f1b8dcff0a6bf66d,
   0x7a959b299e97f1b8dcff0a6bf66d2392, 0x406d45bc05be6f2f2d47d694fc06d5ff,
   0xb7299e97f1b8dcff0a6bf66d23924ed6, 0x8dd140026a914268fbd32a9229f9b8bb,
   0xcdbc05be6f2f2d47d694fc06d5ff6d44, 0xf744db2bf406b3d0272c20f9df949b29,
   0x7897f1b8dcff0a6bf66d23924ed6f3d3, 0x426f2f2d47d694fc07d5ff6d44bd05be,
   0x2026a914268fbd32a9229f9b8bbd041, 0x38fab404d9416544db2af506b2d0262c,
   0xcfbe6f2f2d47d694fc06d5ff6d44bd05, 0xf546b1bab66e48030dbe0900672f4b68,
   0xb52bf406b3d0272c20f9df949b299e97, 0x8fd32a9328f9b9bbd141036b914268fa],
  [0x0, 0x4bb8dcff0a6bf66d23924ed6f3d34dbd,
   0x3eff0a6bf66d23924ed6f3d34dbd6291, 0x7547d694fc06d5ff6d44bd05be6e2f2c,
   0xc46bf66d23924ed6f3d34dbd62912547, 0x8fd32a9229f9b8bbd041036b914268fa,
   0xfa94fc06d5ff6d44bd05be6e2f2c47d6, 0xb12c20f9df949b299e97f0b8dcff0a6b,
   0xc06d23924ed6f3d34dbd62912547b1bb, 0x8bd5ff6d44bd05be6e2f2c47d694fc06,
   0xfe9229f9b8bbd041036b914268fad32a, 0xb52af506b2d0262c20f9df949b299e97,
   0x406d5ff6d44bd05be6e2f2c47d694fc, 0x4fbe0900672f4b689dfc61fab405d941,
   0x3af9df949b299e97f0b8dcff0a6bf66d, 0x7141036b914268fad32a9229f9b8bbd0],
  [0x0, 0xbd924ed6f3d34dbd62912547b1bbb76f,
   0x4cd6f3d34dbd62912547b1bbb76ffde1, 0xf144bd05be6e2f2c47d694fc06d44a8e,
   0x2dd34dbd62912547b1bbb76ffde166cf, 0x9041036b914268fad32a92284c5ad1a0,
   0x6105be6e2f2c47d694fc06d44a8e9b2e, 0xdc97f0b8dcff0a6bf66d2393fb352c41,
   0xcbbd62912547b1bbb76ffde166cf3ce3, 0x762f2c47d694fc06d5fed8a6d7748b8c,
   0x876b914268fad32a92284c5ad1a0c102, 0x3af9df949b299e97f0b9691d601b766d,
   0xe66e2f2c47d694fc06d44a8e9b2e5a2c, 0x5bfc61fab405d94164456fc92a95ed43,
   0xaab8dcff0a6bf66d2393fb352c41a7cd, 0x172a9229f9b8bbd04102de729dfa10a2],
  [0x0, 0xd8912547b1bbb76ffde166cf3ce3b8bd,
   0xd747b1bbb76ffde166cf3ce3b8bda119, 0xfd694fc06d44a8e9b2e5a2c845e19a4,
   0xcfbbb76ffde166cf3ce3b8bda119a81f, 0x172a92284c5ad1a0c102de729dfa10a2,
   0x18fc06d44a8e9b2e5a2c845e19a40906, 0xc06d2393fb352c41a7cde2912547b1bb,
   0xa56ffde166cf3ce3b8bda119a81fbe69, 0x7dfed8a6d7748b8c455cc7d694fc06d4,
   0x72284c5ad1a0c102de729dfa10a21f70, 0xaab9691d601b766d2393fb352c41a7cd,
   0x6ad44a8e9b2e5a2c845e19a409061676, 0xb2456fc92a95ed4379bf7f6b35e5aecb,
   0xbd93fb352c41a7cde2912547b1bbb76f, 0x6502de729dfa10a21f7043888d580fd2],
  [0x0, 0x51e166cf3ce3b8bda119a81fbe69eb96,
   0xaecf3ce3b8bda119a81fbe69eb967764, 0xff2e5a2c845e19a40906167655ff9cf2,
   0x34e3b8bda119a81fbe69eb967764e404, 0x6502de729dfa10a21f704389c90d0f92,
   0x9a2c845e19a40906167655ff9cf29360, 0xcbcde2912547b1bbb76ffde0229b78f6,
   0x42bda119a81fbe69eb967764e4042b9d, 0x135cc7d694fc06d44a8fdf7b5a6dc00b,
   0xec729dfa10a21f704389c90d0f925cf9, 0xbd93fb352c41a7cde2906112b1fbb76f,
   0x765e19a40906167655ff9cf29360cf99, 0x27bf7f6b35e5aecbf4e634ed2d09240f,
   0xd8912547b1bbb76ffde0229b78f6b8fd, 0x897043888d580fd25cf98a84c69f536b],
  [0x0, 0xa119a81fbe69eb967764e4042b9d6e80,
   0x2c1fbe69eb967764e4042b9d6e80ed02, 0x8d06167655ff9cf29360cf99451d8382,
   0x2869eb967764e4042b9d6e80ed023deb, 0x89704389c90d0f925cf98a84c69f536b,
   0x47655ff9cf29360cf99451d8382d0e9, 0xa56ffde0229b78f6b8fda119a81fbe69,
   0x55967764e4042b9d6e80ed023deb3b7f, 0xf48fdf7b5a6dc00b19e40906167655ff,
   0x7989c90d0f925cf98a84c69f536bd67d, 0xd8906112b1fbb76ffde0229b78f6b8fd,
   0x7dff9cf29360cf99451d8382d0e90694, 0xdce634ed2d09240f32796786fb746814,
   0x51e0229b78f6b8fda119a81fbe69eb96, 0xf0f98a84c69f536bd67d4c1b95f48516],
  [0x0, 0x5564e4042b9d6e80ed023deb3b7f71f1,
   0x34042b9d6e80ed023deb3b7f71f17168, 0x6160cf99451d8382d0e906944a8e0099,
   0x1b9d6e80ed023deb3b7f71f171682b18, 0x4ef98a84c69f536bd67d4c1a4a175ae9,
   0x2f99451d8382d0e906944a8e00995a70, 0x7afda119a81fbe69eb9677653be62b81,
   0x8e80ed023deb3b7f71f171682b1814f0, 0xdbe40906167655ff9cf34c8310676501,
   0xba84c69f536bd67d4c1a4a175ae96598, 0xefe0229b78f6b8fda11877fc61961469,
   0x951d8382d0e906944a8e00995a703fe8, 0xc0796786fb746814a78c3d72610f4e19,
   0xa119a81fbe69eb9677653be62b814e80, 0xf47d4c1b95f485169a67060d10fe3f71],
  [0x0, 0xb9023deb3b7f71f171682b1814f0d2ea,
   0x1feb3b7f71f171682b1814f0d2eafbf1, 0xa6e906944a8e00995a703fe8c61a291b,
   0xf37f71f171682b1814f0d2eafbf11264, 0x4a7d4c1a4a175ae96598f9f2ef01c08e,
   0xec944a8e00995a703fe8c61a291be995, 0x559677653be62b814e80ed023deb3b7f,
   0xb9f171682b1814f0d2eafbf112649864, 0xf34c8310676501a382d0e906944a8e,
   0xa61a4a175ae96598f9f2ef01c08e6395, 0x1f1877fc61961469889ac419d47eb17f,
   0x4a8e00995a703fe8c61a291be9958a00, 0xf38c3d72610f4e19b7720203fd6558ea,
   0x55653be62b814e80ed023deb3b7f71f1, 0xec67060d10fe3f719c6a16f32f8fa31b],
  [0x0, 0x63682b1814f0d2eafbf112649864fb69,
   0xc11814f0d2eafbf112649864fb695915, 0xa2703fe8c61a291be9958a00630da27c,
   0x2cf0d2eafbf112649864fb695915b69c, 0x4f98f9f2ef01c08e6395e90dc1714df5,
   0xede8c61a291be9958a00630da27cef89, 0x8e80ed023deb3b7f71f171693a1814e0,
   0x54eafbf112649864fb695915b69c3d63, 0x3782d0e906944a8e00984b712ef8c60a,
   0x95f2ef01c08e6395e90dc1714df56476, 0xf69ac419d47eb17f12fcd315d5919f1f,
   0x781a291be9958a00630da27cef898bff, 0x1b720203fd6558ea98fcb01877ed7096,
   0xb9023deb3b7f71f171693a1814e0d2ea, 0xda6a16f32f8fa31b8a98287c8c842983],
  [0x0, 0x67f112649864fb695915b69c3d63700e,
   0xc0649864fb695915b69c3d63700e5f09, 0xa7958a00630da27cef898bff4d6d2f07,
   0x1e64fb695915b69c3d63700e5f09b763, 0x7995e90dc1714df56476c692626ac76d,
   0xde00630da27cef898bff4d6d2f07e86a, 0xb9f171693a1814e0d2eafbf112649864,
   0xbd695915b69c3d63700e5f09b7631303, 0xda984b712ef8c60a291be9958a00630d,
   0x7d0dc1714df56476c692626ac76d4c0a, 0x1afcd315d5919f1f9f87d4f6fa0e3c04,
   0xa30da27cef898bff4d6d2f07e86aa460, 0xc4fcb01877ed70961478999bd509d46e,
   0x63693a1814e0d2eafbf112649864fb69, 0x498287c8c842983a2e4a4f8a5078b67],
  [0x0, 0xb115b69c3d63700e5f09b7631303fd74,
   0x2e9c3d63700e5f09b7631303fd74f64c, 0x9f898bff4d6d2f07e86aa460ee770b38,
   0xcb63700e5f09b7631303fd74f64c3e5b, 0x7a76c692626ac76d4c0a4a17e54fc32f,
   0xe5ff4d6d2f07e86aa460ee770b38c817, 0x54eafbf112649864fb695914183b3563,
   0x820e5f09b7631303fd74f64c3e5bb819, 0x331be9958a00630da27d412f2d58456d,
   0xac92626ac76d4c0a4a17e54fc32f4e55, 0x1d87d4f6fa0e3c04151e522cd02cb321,
   0x496d2f07e86aa460ee770b38c8178642, 0xf878999bd509d46eb17ebc5bdb147b36,
   0x67f112649864fb695914183b3563700e, 0xd6e4a4f8a5078b67061daf5826608d7a],
  [0x0, 0x8909b7631303fd74f64c3e5bb819d94b,
   0x15631303fd74f64c3e5bb819d94bd631, 0x9c6aa460ee770b38c817864261520f7a,
   0x2103fd74f64c3e5bb819d94bd6311c79, 0xa80a4a17e54fc32f4e55e7106e28c532,
   0x3460ee770b38c817864261520f7aca48, 0xbd695914183b3563700e5f09b7631303,
   0x8574f64c3e5bb819d94bd6311c79373c, 0xc7d412f2d58456d2f07e86aa460ee77,
   0x9017e54fc32f4e55e7106e28c532e10d, 0x191e522cd02cb321115c50737d2b3846,
   0xa4770b38c817864261520f7aca482b45, 0x2d7ebc5bdb147b36971e31217251f20e,
   0xb114183b3563700e5f09b7631303fd74, 0x381daf5826608d7aa9458938ab1a243f],
  [0x0, 0xe64c3e5bb819d94bd6311c79373cdd08,
   0xa85bb819d94bd6311c79373cdd08846b, 0x4e17864261520f7aca482b45ea345963,
   0xcc19d94bd6311c79373cdd08846be17a, 0x2a55e7106e28c532e10dc171b3573c72,
   0x644261520f7aca482b45ea3459636511, 0x820e5f09b7631303fd74f64d6e5fb819,
   0xed4bd6311c79373cdd08846be17abc5a, 0xb07e86aa460ee770b399812d6466152,
   0x45106e28c532e10dc171b3573c723831, 0xa35c50737d2b38461740af2e0b4ee539,
   0x21520f7aca482b45ea34596365115d20, 0xc71e31217251f20e3c05451a522d8028,
   0x8909b7631303fd74f64d6e5fb819d94b, 0x6f458938ab1a243f207c72268f250443],
  [0x0, 0x34311c79373cdd08846be17abc5a8b11,
   0xf879373cdd08846be17abc5a8b112b32, 0xcc482b45ea34596365115d20374ba023,
   0x493cdd08846be17abc5a8b112b32971f, 0x7d0dc171b3573c7238316a6b97681c0e,
   0xb145ea34596365115d20374ba023bc2d, 0x8574f64d6e5fb819d94bd6311c79373c,
   0x5708846be17abc5a8b112b32971f6125, 0x63399812d64661520f7aca482b45ea34,
   0xaf71b3573c7238316a6b97681c0e4a17, 0x9b40af2e0b4ee539ee007612a054c106,
   0x1e34596365115d20374ba023bc2df63a, 0x2a05451a522d8028b320415900777d2b,
   0xe64d6e5fb819d94bd6311c79373cdd08, 0xd27c72268f250443525afd038b665619],
  [0x0, 0x246be17abc5a8b112b32971f61257250,
   0xbf7abc5a8b112b32971f61257250300f, 0x9b115d20374ba023bc2df63a1375425f,
   0x765a8b112b32971f61257250300ffe05, 0x52316a6b97681c0e4a17e54f512a8c55,
   0xc920374ba023bc2df63a1375425fce0a, 0xed4bd6311c79373cdd08846a237abc5a,
   0xfd112b32971f61257250300ffe05451b, 0xd97aca482b45ea345962a7109f20374b,
   0x426b97681c0e4a17e54f512a8c557514, 0x66007612a054c106ce7dc635ed700744,
   0x8b4ba023bc2df63a1375425fce0abb1e, 0xaf20415900777d2b3847d540af2fc94e,
   0x34311c79373cdd08846a237abc5a8b11, 0x105afd038b665619af58b465dd7ff941],
  [0x0, 0x7332971f61257250300ffe05451b902c,
   0xc71f61257250300ffe05451b902c4228, 0xb42df63a1375425fce0abb1ed537d204,
   0xe3257250300ffe05451b902c4228b321, 0x9017e54f512a8c5575146e290733230d,
   0x243a1375425fce0abb1ed537d204f109, 0x5708846a237abc5a8b112b32971f6125,
   0x50300ffe05451b902c4228b3218359, 0x7362a7109f20374ba023bc2df63a1375,
   0xc74f512a8c5575146e290733230dc171, 0xb47dc635ed7007445e26f9366616515d,
   0xe375425fce0abb1ed537d204f1093078, 0x9047d540af2fc94ee5382c01b412a054,
   0x246a237abc5a8b112b32971f61257250, 0x5758b465dd7ff9411b3d691a243ee27c],
  [0x0, 0x5c0ffe05451b902c4228b32183590076,
   0x2a05451b902c4228b321835900767d2a, 0x760abb1ed537d204f1093078832f7d5c,
   0x8b1b902c4228b321835900767d2a3847, 0xd7146e290733230dc171b357fe733831,
   0xa11ed537d204f1093078832f7d5c456d, 0xfd112b32971f61257250300efe05451b,
   0xd22c4228b321835900767d2a3847d541, 0x8e23bc2df63a1375425ece0bbb1ed537,
   0xf8290733230dc171b357fe733831a86b, 0xa426f9366616515df17f4d52bb68a81d,
   0x5937d204f1093078832f7d5c456ded06, 0x5382c01b412a054c107ce7dc634ed70,
   0x7332971f61257250300efe05451b902c, 0x2f3d691a243ee27c72264d24c642905a],
  [0x0, 0x9e28b321835900767d2a3847d541af2e,
   0xaf21835900767d2a3847d541af2ec94e, 0x31093078832f7d5c456ded067a6f6660,
   0x315900767d2a3847d541af2ec94ee539, 0xaf71b357fe733831a86b97691c0f4a17,
   0x9e78832f7d5c456ded067a6f66602c77, 0x50300efe05451b902c4228b3218359,
   0xc2767d2a3847d541af2ec94ee5392c01, 0x5c5ece0bbb1ed537d204f1093078832f,
   0x6d57fe733831a86b97691c0f4a17e54f, 0xf37f4d52bb68a81dea4324489f564a61,
   0xf32f7d5c456ded067a6f66602c77c938, 0x6d07ce7dc634ed7007455e27f9366616,
   0x5c0efe05451b902c4228b32183590076, 0xc2264d24c642905a3f028b665618af58]]

/-- `POLYVAL_NIBBLE_POW_2_N_TABLE[2]`, `packed_polyval_128.rs:195-3664`. -/
def nibblePow2 : List (List Nat) := [
  [0x0, 0xc2000000000000000000000000000001,
   0xb72de83aa2594e04678bd6ff70c1b512, 0x752de83aa2594e04678bd6ff70c1b513,
   0x50379ea77339474434ee7de0a403e3d5, 0x92379ea77339474434ee7de0a403e3d4,
   0xe71a769dd16009405365ab1fd4c256c7, 0x251a769dd16009405365ab1fd4c256c6,
   0x38fb77c71b416544dae9f406b3d0272c, 0xfafb77c71b416544dae9f406b3d0272d,
   0x8fd69ffdb9182b40bd6222f9c311923e, 0x4dd69ffdb9182b40bd6222f9c311923f,
   0x68cce96068782200ee0789e617d3c4f9, 0xaacce96068782200ee0789e617d3c4f8,
   0xdfe1015aca216c04898c5f19671271eb, 0x1de1015aca216c04898c5f19671271ea],
  [0x0, 0xbd924ed6f3d34dbd62912547b1bbb76f,
   0x5564e4042b9d6e80ed023deb3b7f71f1, 0xe8f6aad2d84e233d8f9318ac8ac4c69e,
   0xb115b69c3d63700e5f09b7631303fd74, 0xc87f84aceb03db33d989224a2b84a1b,
   0xe471529816fe1e8eb20b8a88287c8c85, 0x59e31c4ee52d5333d09aafcf99c73bea,
   0x246be17abc5a8b112b32971f61257250, 0x99f9afac4f89c6ac49a3b258d09ec53f,
   0x710f057e97c7e591c630aaf45a5a03a1, 0xcc9d4ba86414a82ca4a18fb3ebe1b4ce,
   0x957e57e68139fb1f743b207c72268f24, 0x28ec193072eab6a216aa053bc39d384b,
   0xc01ab3e2aaa4959f99391d974959fed5, 0x7d88fd345977d822fba838d0f8e249ba],
  [0x0, 0x1b2a3847d541af2ec94ee5392c01b413,
   0x50d897b221ecd1fd1971e75c6c9e7e08, 0x4bf2aff5f4ad7ed3d03f0265409fca1b,
   0xe8d076175ab709ce48f911d164bfe86b, 0xf3fa4e508ff6a6e081b7f4e848be5c78,
   0xb808e1a57b5bd8335188f68d08219663, 0xa322d9e2ae1a771d98c613b424202270,
   0xd1d342bc78012745022ce341b18051d, 0x16370c6c12c1bd5a996c2b0d3719b10e,
   0x5dc5a399e66cc3894953296877867b15, 0x46ef9bde332d6ca7801dcc515b87cf06,
   0xe5cd423c9d371bba18dbdfe57fa7ed76, 0xfee77a7b4876b494d1953adc53a65965,
   0xb515d58ebcdbca4701aa38b91339937e, 0xae3fedc9699a6569c8e4dd803f38276d],
  [0x0, 0x60c96b607144b07ece95de03b50778a2,
   0xd86d3e9bc6faabde0190ede79c4e7235, 0xb8a455fbb7be1ba0cf0533e429490a97,
   0x36e58882d59feec3479d451b8a814e3, 0x63a733e85c1d4e92faec0a520daf6c41,
   0xdb036613eba3553235e939b624e666d6, 0xbbca0d739ae7e54cfb7ce7b591e11e74,
   0x3b270f2da318cd18a297d6d603001ea1, 0x5bee644dd25c7d666c0208d5b6076603,
   0xe34a31b665e266c6a3073b319f4e6c94, 0x83835ad614a6d6b86d92e5322a491436,
   0x384957a58e4133f496ee0287bba80a42, 0x58803cc5ff05838a587bdc840eaf72e0,
   0xe024693e48bb982a977eef6027e67877, 0x80ed025e39ff285459eb316392e100d5],
  [0x0, 0xf1805a0fc6f5f4ae1475b000f0032590,
   0x1c6935978aab879e714a416610bf43b8, 0xede96f984c5e7330653ff166e0bc6628,
   0xf1b309abe8a7b28abf458579e380fd21, 0x3353a42e524624ab3035791383d8b1,
   0xedda3c3c620c3514ce0fc41ff33fbe99, 0x1c5a6633a4f9c1bada7a741f033c9b09,
   0x323b5a7eda626452af30370b5d32231f, 0xc3bb00711c9790fcbb45870bad31068f,
   0x2e526fe950c9e3ccde7a766d4d8d60a7, 0xdfd235e6963c1762ca0fc66dbd8e4537,
   0xc38853d532c5d6d81075b272beb2de3e, 0x320809daf4302276040002724eb1fbae,
   0xdfe16642b86e5146613ff314ae0d9d86, 0x2e613c4d7e9ba5e8754a43145e0eb816],
  [0x0, 0x3504bb1b56d7ae76c87013350199cb0a,
   0xe2cc147006c97df0309e9f612784101c, 0xd7c8af6b501ed386f8ee8c54261ddb16,
   0x56f7065e61dbaa9371a10bb28119f6bf, 0x63f3bd45370c04e5b9d1188780803db5,
   0xb43b122e6712d763413f94d3a69de6a3, 0x813fa93531c57915894f87e6a7042da9,
   0xd5f6d0a6f05135f5998c84f37b8f222b, 0xe0f26bbda6869b8351fc97c67a16e921,
   0x373ac4d6f6984805a9121b925c0b3237, 0x23e7fcda04fe673616208a75d92f93d,
   0x8301d6f8918a9f66e82d8f41fa96d494, 0xb6056de3c75d3110205d9c74fb0f1f9e,
   0x61cdc2889743e296d8b31020dd12c488, 0x54c97993c1944ce010c30315dc8b0f82],
  [0x0, 0x76db891e9b4cbc06a956f20ab59ae2db,
   0x21e260b01f91b4006698d1375057173a, 0x5739e9ae84dd0806cfce233de5cdf5e1,
   0xfb05a7136e9148f7cb3ae90ff6a85f83, 0x8dde2e0df5ddf4f1626c1b054332bd58,
   0xdae7c7a37100fcf7ada23838a6ff48b9, 0xac3c4ebdea4c40f104f4ca321365aa62,
   0xa21d0c8cb96efde891f960d3a6076bd6, 0xd4c68592222241ee38af92d9139d890d,
   0x83ff6c3ca6ff49e8f761b1e4f6507cec, 0xf524e5223db3f5ee5e3743ee43ca9e37,
   0x5918ab9fd7ffb51f5ac389dc50af3455, 0x2fc322814cb30919f3957bd6e535d68e,
   0x78facb2fc86e011f3c5b58eb00f8236f, 0xe2142315322bd19950daae1b562c1b4],
  [0x0, 0x9ac72ecf3e3e7da3b06be6b9d48a1ffe,
   0x3dbcef3cba389c1f562b52b6d982374, 0x991ce03cf59df46245095392b9123c8a,
   0xe0ce7d4d872c41286c03cb4051f8dec9, 0x7a095382b9123c8bdc682df98572c137,
   0xe315b3be4c8fc8e999617e6b3c60fdbd, 0x79d29d7172b1b54a290a98d2e8eae243,
   0x88beb098f7c3747d2612ccfa53da9fb5, 0x12799e57c9fd09de96792a438750804b,
   0x8b657e6b3c60fdbcd37079d13e42bcc1, 0x11a250a4025e801f631b9f68eac8a33f,
   0x6870cdd570ef35554a1107ba0222417c, 0xf2b7e31a4ed148f6fa7ae103d6a85e82,
   0x6bab0326bb4cbc94bf73b2916fba6208, 0xf16c2de98572c1370f185428bb307df6],
  [0x0, 0x54df7af7850e00553a7e55179805d716,
   0x309c1edd7435f36ff5e67bc2e148e52c, 0x6443642af13bf33acf982ed5794d323a,
   0xfabbca1691309826698632653633fd6e, 0xae64b0e1143e987353f86772ae362a78,
   0xca27d4cbe5056b499c6049a7d77b1842, 0x9ef8ae3c600b6b1ca61e1cb04f7ecf54,
   0x90958051f3a41356f6325962cc676246, 0xc44afaa676aa1303cc4c0c755462b550,
   0xa0099e8c8791e03903d422a02d2f876a, 0xf4d6e47b029fe06c39aa77b7b52a507c,
   0x6a2e4a4762948b709fb46b07fa549f28, 0x3ef130b0e79a8b25a5ca3e106251483e,
   0x5ab2549a16a1781f6a5210c51b1c7a04, 0xe6d2e6d93af784a502c45d28319ad12],
  [0x0, 0xb125333892dcbcde7deefe952f03254d,
   0xed346bbd8534d14b5b9d00da0f4cedd6, 0x5c11588517e86d952673fe4f204fc89b,
   0x37b2698f1794ff2206cb70c91b1edaac, 0x86975ab7854843fc7b258e5c341dffe1,
   0xda86023292a02e695d5670131452377a, 0x6ba3310a007c92b720b88e863b511237,
   0x4638e6ad1a00b02856aa08da1e134744, 0xf71dd59588dc0cf62b44f64f31106209,
   0xab0c8d109f3461630d370800115faa92, 0x1a29be280de8ddbd70d9f6953e5c8fdf,
   0x718a8f220d944f0a50617813050d9de8, 0xc0afbc1a9f48f3d42d8f86862a0eb8a5,
   0x9cbee49f88a09e410bfc78c90a41703e, 0x2d9bd7a71a7c229f7612865c25425573],
  [0x0, 0x86d19afa4481cd92f315e2266a825f63,
   0x86f81508b6529b80b8b000dc818a6682, 0x298ff2f2d356124ba5e2faeb0839e1,
   0x8b8e2179d8386429c506cadd349354ae, 0xd5fbb839cb9a9bb361328fb5e110bcd,
   0xd7634716e6affa97db6ca01b519322c, 0x8ba7ae8b2aeb323b8ea32827df9b6d4f,
   0x18c8b41dbcaf8d06150d0d66da22b9ca, 0x9e192ee7f82e4094e618ef40b0a0e6a9,
   0x9e30a1150afd1686adbd0dba5ba8df48, 0x18e13bef4e7cdb145ea8ef9c312a802b,
   0x934695646497e92fd00bc7bbeeb1ed64, 0x15970f9e201624bd231e259d8433b207,
   0x15be806cd2c572af68bbc7676f3b8be6, 0x936f1a969644bf3d9bae254105b9d485],
  [0x0, 0x4eabe09cc2622d196c8092f66c351f25,
   0x2c1794a0b600cb711540f5dfab35892b, 0x62bc743c7462e66879c06729c700960e,
   0x5d3667f8819c0e78859c2beb681e5a6f, 0x139d876443fe2361e91cb91d042b454a,
   0x7121f358379cc50990dcde34c32bd344, 0x3f8a13c4f5fee810fc5c4cc2af1ecc61,
   0xe3d0a21cf875c3494fa9f7c098b9d1ed, 0xad7b42803a17ee5023296536f48ccec8,
   0xcfc736bc4e7508385ae9021f338c58c6, 0x816cd6208c172521366990e95fb947e3,
   0xbee6c5e479e9cd31ca35dc2bf0a78b82, 0xf04d2578bb8be028a6b54edd9c9294a7,
   0x92f15144cfe90640df7529f45b9202a9, 0xdc5ab1d80d8b2b59b3f5bb0237a71d8c],
  [0x0, 0x1ff90ebc022c0923bf128365a6ff6500,
   0xf85d86201c76bc37c33224d52c70e27a, 0xe7a4889c1e5ab5147c20a7b08a8f877a,
   0xf0220d36f96381d0f6b75cf9aec8ecbd, 0xefdb038afb4f88f349a5df9c083789bd,
   0x87f8b16e5153de73585782c82b80ec7, 0x178685aae73934c48a97fb4924476bc7,
   0x1dd9e55076f108b32dd2583c0d80efaf, 0x220ebec74dd019092c0db59ab7f8aaf,
   0xe58463706a87b484eee07ce921f00dd5, 0xfa7d6dcc68abbda751f2ff8c870f68d5,
   0xedfbe8668f928963db6504c5a3480312, 0xf202e6da8dbe8040647787a005b76612,
   0x15a66e4693e43554185720108f38e168, 0xa5f60fa91c83c77a745a37529c78468],
  [0x0, 0xa5874caca7cc436f14251ef98dc84f93,
   0x1675fdd2cf98c14a3db873d11676c8f9, 0xb3f2b17e68548225299d6d289bbe876a,
   0x317a94a59782d34f8d23c4ea40f7339, 0xa690e5e6feb46e5becf722b729c73caa,
   0x1562549896e0ec7ec56a4f9fb279bbc0, 0xb0e51834312caf11d14f51663fb1f453,
   0xbaf39c5473ec2a8f7bbacd381486f2a0, 0x1f74d0f8d42069e06f9fd3c1994ebd33,
   0xac866186bc74ebc54602bee902f03a59, 0x9012d2a1bb8a8aa5227a0108f3875ca,
   0xb9e4351e2a9407bb8368f176b0898199, 0x1c6379b28d5844d4974def8f3d41ce0a,
   0xaf91c8cce50cc6f1bed082a7a6ff4960, 0xa16846042c0859eaaf59c5e2b3706f3],
  [0x0, 0xe05e4b4b25e70e6e2a2a55a39cf94404,
   0x843ed83ca6cbdf6cb0bc4388163785fb, 0x64609377832cd1029a96162b8acec1ff,
   0x5232a86a2e03b07b01005737c74f80f7, 0xb26ce3210be4be152b2a02945bb6c4f3,
   0xd60c705688c86f17b1bc14bfd178050c, 0x36523b1dad2f61799b96411c4d814108,
   0x5fc7ba40f5142d9706911a465cb1889f, 0xbf99f10bd0f323f92cbb4fe5c048cc9b,
   0xdbf9627c53dff2fbb62d59ce4a860d64, 0x3ba729377638fc959c070c6dd67f4960,
   0xdf5122adb179dec07914d719bfe0868, 0xedab5961fef093822dbb18d207074c6c,
   0x89cbca167ddc4280b72d0ef98dc98d93, 0x6995815d583b4cee9d075b5a1130c997],
  [0x0, 0x3c40f052b38746715df6ac4afd08c091,
   0x4e1a4521c9e7e60d41b5966205b63b37, 0x725ab5737a60a07c1c433a28f8befba6,
   0xed176c9121cc8b5dc0f1f710ec380906, 0xd1579cc3924bcd2c9d075b5a1130c997,
   0xa30d29b0e82b6d5081446172e98e3231, 0x9f4dd9e25bac2b21dcb2cd381486f2a0,
   0x6f33a8ebcdcc62fcab6e34d175777635, 0x537358b97e4b248df698989b887fb6a4,
   0x2129edca042b84f1eadba2b370c14d02, 0x1d691d98b7acc280b72d0ef98dc98d93,
   0x8224c47aec00e9a16b9fc3c1994f7f33, 0xbe6434285f87afd036696f8b6447bfa2,
   0xcc3e815b25e70fac2a2a55a39cf94404, 0xf07e7109966049dd77dcf9e961f18495],
  [0x0, 0x21fdc3d4a0bbb6cddb2380498f78fac8,
   0x6a65168aef8a225553a5eac2a7f138ad, 0x4b98d55e4f31949888866a8b2889c265,
   0xb637c8e333c877f676b9db41beb0f131, 0x97ca0b379373c13bad9a5b0831c80bf9,
   0xdc52de69dc4255a3251c31831941c99c, 0xfdaf1dbd7cf9e36efe3fb1ca96393354,
   0xc0a72061d9ba3daf9e7fb4c3b83150ca, 0xe15ae3b579018b62455c348a3749aa02,
   0xaac236eb36301ffacdda5e011fc06867, 0x8b3ff53f968ba93716f9de4890b892af,
   0x7690e882ea724a59e8c66f820681a1fb, 0x576d2b564ac9fc9433e5efcb89f95b33,
   0x1cf5fe0805f8680cbb638540a1709956, 0x3d083ddca543dec1604005092e08639e],
  [0x0, 0x994d77de7e891221a5d02bcce1477d57,
   0x243f2e533adff8ea7e1fd83f9fa9e49e, 0xbd72598d4456eacbdbcff3f37eee99c9,
   0x1d216fdc5593482e31c9ff22f02a052f, 0x846c18022b1a5a0f9419d4ee116d7878,
   0x391e418f6f4cb0c44fd6271d6f83e1b1, 0xa053365111c5a2e5ea060cd18ec49ce6,
   0x512935736dfebacac74747aeaf8abf38, 0xc86442ad1377a8eb62976c624ecdc26f,
   0x75161b2057214220b9589f9130235ba6, 0xec5b6cfe29a850011c88b45dd16426f1,
   0x4c085aaf386df2e4f68eb88c5fa0ba17, 0xd5452d7146e4e0c5535e9340bee7c740,
   0x683774fc02b20a0e889160b3c0095e89, 0xf17a03227c3b182f2d414b7f214e23de],
  [0x0, 0x14c20dd2c704dc1fa4663b568845af19,
   0xab453c07a44de9c517f13953b8ab3210, 0xbf8731d5634935dab397020530ee9d09,
   0x7f953e3f76452844c87b735c9ac41f3c, 0x6b5733edb141f45b6c1d480a1281b025,
   0xd4d00238d208c181df8a4a0f226f2d2c, 0xc0120fea150c1d9e7bec7159aa2a8235,
   0x44e51083f68247c1a432523847b28ba5, 0x50271d5131869bde0054696ecff724bc,
   0xefa02c8452cfae04b3c36b6bff19b9b5, 0xfb62215695cb721b17a5503d775c16ac,
   0x3b702ebc80c76f856c492164dd769499, 0x2fb2236e47c3b39ac82f1a3255333b80,
   0x903512bb248a86407bb8183765dda689, 0x84f71f69e38e5a5fdfde2361ed980990],
  [0x0, 0xdc4e01d244ab2c8442a10ab99040fbe0,
   0x34fbef0ebc44b813474a3a9f59d5ad2f, 0xe8b5eedcf8ef949705eb3026c99556cf,
   0x35ad5abfdc64a94488eda9c4933af27c, 0xe9e35b6d98cf85c0ca4ca37d037a099c,
   0x156b5b160201157cfa7935bcaef5f53, 0xdd18b463248b3dd38d0699e25aafa4b3,
   0x3984fc76fd241acaf0f4201152ebf846, 0xe5cafda4b98f364eb2552aa8c2ab03a6,
   0xd7f13784160a2d9b7be1a8e0b3e5569, 0xd13112aa05cb8e5df51f10379b7eae89,
   0xc29a6c92140b38e781989d5c1d10a3a, 0xd067a71b65eb9f0a3ab8836c5191f1da,
   0x38d249c79d040b9d3f53b34a9804a715, 0xe49c4815d9af27197df2b9f308445cf5],
  [0x0, 0xb66c9adec8eb5a57234fb88645d9302a,
   0xbb833902ad6c248c6c93c7669403b6f6, 0xdefa3dc65877edb4fdc7fe0d1da86dc,
   0x383ea30a01116d4e9595a3f3d2761887, 0x8e5239d4c9fa3719b6da1b7597af28ad,
   0x83bd9a08ac7d49c2f90664954675ae71, 0x35d100d664961395da49dc1303ac9e5b,
   0x6948fe5aedd320029a92721cef382dc9, 0xdf24648425387a55b9ddca9aaae11de3,
   0xd2cbc75840bf048ef601b57a7b3b9b3f, 0x64a75d8688545ed9d54e0dfc3ee2ab15,
   0x51765d50ecc24d4c0f07d1ef3d4e354e, 0xe71ac78e2429171b2c48696978970564,
   0xeaf5645241ae69c063941689a94d83b8, 0x5c99fe8c8945339740dbae0fec94b392],
  [0x0, 0xfba8a24f40d6f04e35965404c3ee53a2,
   0xa64803ba74616c0941d8e42e3f7efe37, 0x5de0a1f534b79c47744eb02afc90ad95,
   0xef8fb22d277d78620045cb5a3e6a2ec3, 0x1427106267ab882c35d39f5efd847d61,
   0x49c7b197531c146b419d2f740114d0f4, 0xb26f13d813cae425740b7b70c2fa8356,
   0x3758ddea6d54accfa1211848eb373e61, 0xccf07fa52d825c8194b74c4c28d96dc3,
   0x9110de501935c0c6e0f9fc66d449c056, 0x6ab87c1f59e33088d56fa86217a793f4,
   0xd8d76fc74a29d4ada164d312d55d10a2, 0x237fcd880aff24e394f2871616b34300,
   0x7e9f6c7d3e48b8a4e0bc373cea23ee95, 0x8537ce327e9e48ead52a633829cdbd37],
  [0x0, 0xa15494c5254523216340b2d3e7f96c54,
   0x34aba564cfdce8e5e77f18867d6d0bb6, 0x95ff31a1ea99cbc4843faa559a9467e2,
   0x789bff352b67cb0858ea4cd7c2b4507f, 0xd9cf6bf00e22e8293baafe04254d3c2b,
   0x4c305a51e4bb23edbf955451bfd95bc9, 0xed64ce94c1fe00ccdcd5e6825820379d,
   0xe489b8b5ec6dd35da66269af400b28e4, 0x45dd2c70c928f07cc522db7ca7f244b0,
   0xd0221dd123b13bb8411d71293d662352, 0x7176891406f41899225dc3fada9f4f06,
   0x9c124780c70a1855fe88257882bf789b, 0x3d46d345e24f3b749dc897ab654614cf,
   0xa8b9e2e408d6f0b019f73dfeffd2732d, 0x9ed76212d93d3917ab78f2d182b1f79],
  [0x0, 0x2498963ab36b749e1159c0f9b5c18602,
   0xde290725924b5fa130e9e419cbe081e7, 0xfab1911f21202b3f21b024e07e2107e5,
   0x30b4cf96c7487f02472e32a7f66b984, 0x2793dac3df1ff36e352b23d3caa73f86,
   0xdd224bdcfe3fd851149b0733b4863863, 0xf9badde64d54accf05c2c7ca0147be61,
   0x82d5d719db7afb70f83db5fc737f5437, 0xa64d412368118feee9647505c6bed235,
   0x5cfcd03c4931a4d1c8d451e5b89fd5d0, 0x78644606fa5ad04fd98d911c0d5e53d2,
   0x81de9be0b70e7c80dc4f56d60c19edb3, 0xa5460dda0465081ecd16962fb9d86bb1,
   0x5ff79cc525452321eca6b2cfc7f96c54, 0x7b6f0aff962e57bffdff72367238ea56],
  [0x0, 0x77753e8478d29465959746507174e605,
   0x69231cf9ee4163b6c6855e2cf85798ee, 0x1e56227d9693f7d35312187c89237eeb,
   0xd6f6dd9c4f00497fe434affe2eff1788, 0xa183e31837d2dd1a71a3e9ae5f8bf18d,
   0xbfd5c165a1412ac922b1f1d2d6a88f66, 0xc8a0ffe1d993beacb726b782a7dc6963,
   0xbed6b1b1ec061f4372bdcb66d8de118a, 0xc9a38f3594d48b26e72a8d36a9aaf78f,
   0xd7f5ad4802477cf5b438954a20898964, 0xa08093cc7a95e89021afd31a51fd6f61,
   0x68206c2da306563c96896498f6210602, 0x1f5552a9dbd4c259031e22c88755e007,
   0x10370d44d47358a500c3ab40e769eec, 0x76764e503595a1efc59b7ce47f0278e9],
  [0x0, 0x74355a54f7dfcf0f60a2d0d5abc58727,
   0xd89d79ce6d6a4d3b2dea57fc39df4559, 0xaca8239a9ab582344d488729921ac27e,
   0x43605e24418397a6b57947816b8258e7, 0x37550470b65c58a9d5db9754c047dfc0,
   0x9bfd27ea2ce9da9d9893107d525d1dbe, 0xefc87dbedb361592f831c0a8f9989a99,
   0xa39ce7dd5c3bb05b05041729dd9a0d18, 0xd7a9bd89abe47f5465a6c7fc765f8a3f,
   0x7b019e133151fd6028ee40d5e4454841, 0xf34c447c68e326f484c90004f80cf66,
   0xe0fcb9f91db827fdb07d50a8b61855ff, 0x94c9e3adea67e8f2d0df807d1dddd2d8,
   0x3861c03770d26ac69d9707548fc710a6, 0x4c549a63870da5c9fd35d78124029781],
  [0x0, 0xd9db6700f3f9864b76f85e808c4f0f11,
   0xecff9baf84066a6fd7c9e6578e6cc82a, 0x3524fcaf77ffec24a131b8d70223c73b,
   0x74b7012bcfbdf667938c73b114d1fa5f, 0xad6c662b3c44702ce5742d31989ef54e,
   0x98489a844bbb9c08444595e69abd3275, 0x4193fd84b8421a4332bdcb6616f23d64,
   0x763095c4ed31165271b210669a70b5ac, 0xafebf2c41ec89019074a4ee6163fbabd,
   0x9acf0e6b69377c3da67bf631141c7d86, 0x4314696b9acefa76d083a8b198537297,
   0x28794ef228ce035e23e63d78ea14ff3, 0xdb5cf3efd175667e94c63d5702ee40e2,
   0xee780f40a68a8a5a35f7858000cd87d9, 0x37a3684055730c11430fdb008c8288c8],
  [0x0, 0x191bec704ae7ac0fced5352a74bdc9ab,
   0xe1f6284a24169ef4e0a26d930ecfb73, 0x17048ef4e8a6c5e080df13f3445132d8,
   0x5fd86938a59d75aa94db04cb46293fdd, 0x46c38548ef7ad9a55a0e31e13294f676,
   0x51c70bbc07dc1c45dad1221276c5c4ae, 0x48dce7cc4d3bb04a1404173802780d05,
   0x1a186cbda4219a0ffc2d7c93542dc3be, 0x30380cdeec6360032f849b920900a15,
   0x14070e390660f3e0b2275a4a64c138cd, 0xd1ce2494c875fef7cf26f60107cf166,
   0x45c0058501bcefa568f678581204fc63, 0x5cdbe9f54b5b43aaa6234d7266b935c8,
   0x4bdf6701a3fd864a26fc5e8122e80710, 0x52c48b71e91a2a45e8296bab5655cebb],
  [0x0, 0x6b3f9e2b85ba85cbbf3f9e0e5e683448,
   0x99ae45a0b522ce280661e1ec1fd11db9, 0xf291db8b30984be3b95e7fe241b929f1,
   0x4b4e7372ed66bfa0c5cd7e95cbc89c4c, 0x2071ed5968dc3a6b7af2e09b95a0a804,
   0xd2e036d258447188c3ac9f79d41981f5, 0xb9dfa8f9ddfef4437c9301778a71b5bd,
   0x3300d7f2165c2fdb0829af03a4a5190a, 0x583f49d993e6aa10b716310dfacd2d42,
   0xaaae9252a37ee1f30e484eefbb7404b3, 0xc1910c7926c46438b177d0e1e51c30fb,
   0x784ea480fb3a907bcde4d1966f6d8546, 0x13713aab7e8015b072db4f983105b10e,
   0xe1e0e1204e185e53cb85307a70bc98ff, 0x8adf7f0bcba2db9874baae742ed4acb7],
  [0x0, 0xb551c70459b8f89482eef64f5f807f35,
   0x284e93fe6a78e6b01e5c5d87bd0d1db7, 0x9d1f54fa33c01e249cb2abc8e28d6282,
   0x541a095686f1843b609fd75bb6a1b03d, 0xe14bce52df497cafe2712114e921cf08,
   0x7c549aa8ec89628b7ec38adc0bacad8a, 0xc9055dacb5319a1ffc2d7c93542cd2bf,
   0x856e54863937e740c1fc14d255c5c9c7, 0x303f9382608f1fd44312e29d0a45b6f2,
   0xad20c778534f01f0dfa04955e8c8d470, 0x1871007c0af7f9645d4ebf1ab748ab45,
   0xd1745dd0bfc6637ba163c389e36479fa, 0x64259ad4e67e9bef238d35c6bce406cf,
   0xf93ace2ed5be85cbbf3f9e0e5e69644d, 0x4c6b092a8c067d5f3dd1684101e91b78],
  [0x0, 0x8adb18710ae4ad53a7022265fcb46442,
   0xc3ea6b808fe0b4b7f7775d2222b931c8, 0x493173f1850419e450757f47de0d558a,
   0xa821b5138348372e585cc0447aa84c81, 0x22faad6289ac9a7dff5ee221861c28c3,
   0x6bcbde930ca88399af2b9d6658117d49, 0xe110c6e2064c2eca0829bf03a4a5190b,
   0x4dcf4d9355107a5d29c56b290791027d, 0xc71455e25ff4d70e8ec7494cfb25663f,
   0x8e252613daf0ceeadeb2360b252833b5, 0x4fe3e62d01463b979b0146ed99c57f7,
   0xe5eef880d6584d737199ab6d7d394efc, 0x6f35e0f1dcbce020d69b8908818d2abe,
   0x2604930059b8f9c486eef64f5f807f34, 0xacdf8b71535c549721ecd42aa3341b76],
  [0x0, 0xea16b7ebc20aac36fc5f6eac034534a,
   0x91206bae6f8154a5269f4a987104e10b, 0x9f8100d0d3a1fe66495abc72b130b241,
   0xc9ef5446ea96192688a6a8a0e4f57b87, 0xc74e3f3856b6b3e5e7635e4a24c128cd,
   0x58cf3fe885174d83ae39e23895f19a8c, 0x566e54963937e740c1fc14d255c5c9c6,
   0x401027998ff3e0d0093bc05d6945fecf, 0x4eb14ce733d34a1366fe36b7a971ad85,
   0xd1304c37e072b4752fa48ac518411fc4, 0xdf9127495c521eb640617c2fd8754c8e,
   0x89ff73df6565f9f6819d68fd8db08548, 0x875e18a1d9455335ee589e174d84d602,
   0x18df18710ae4ad53a7022265fcb46443, 0x167e730fb6c40790c8c7d48f3c803709]]

/-- `POLYVAL_NIBBLE_POW_2_N_TABLE[3]`, `packed_polyval_128.rs:195-3664`. -/
def nibblePow3 : List (List Nat) := [
  [0x0, 0xc2000000000000000000000000000001,
   0xc8b542ce8f979e5d49a62a6024074080, 0xab542ce8f979e5d49a62a6024074081,
   0x4c1170823f7bc37c4741610fb77461d1, 0x8e1170823f7bc37c4741610fb77461d0,
   0x84a4324cb0ec5d210ee74b6f93732151, 0x46a4324cb0ec5d210ee74b6f93732150,
   0xbcce6db9628f6350325760418537fd08, 0x7ece6db9628f6350325760418537fd09,
   0x747b2f77ed18fd0d7bf14a21a130bd88, 0xb67b2f77ed18fd0d7bf14a21a130bd89,
   0xf0df1d3b5df4a02c7516014e32439cd9, 0x32df1d3b5df4a02c7516014e32439cd8,
   0x386a5ff5d2633e713cb02b2e1644dc59, 0xfa6a5ff5d2633e713cb02b2e1644dc58],
  [0x0, 0x9e6ef720cc29826e1905e5b36b2cba33,
   0x73c37152106ffcc129a6dfe9a8ba6902, 0xedad8672dc467eaf30a33a5ac396d331,
   0xa29d45ace5795960a699a48594027370, 0x3cf3b28c2950db0ebf9c4136ff2ec943,
   0xd15e34fef516a5a18f3f7b6c3cb81a72, 0x4f30c3de393f27cf963a9edf5794a041,
   0x964d4343a1e24419b13231a9cb29cccb, 0x823b4636dcbc677a837d41aa00576f8,
   0xe58e3211b18db8d89894ee406393a5c9, 0x7be0c5317da43ab681910bf308bf1ffa,
   0x34d006ef449b1d7917ab952c5f2bbfbb, 0xaabef1cf88b29f170eae709f34070588,
   0x471377bd54f4e1b83e0d4ac5f791d6b9, 0xd97d809d98dd63d62708af769cbd6c8a],
  [0x0, 0xdcf35649dca0904c810e492596399a98,
   0xd08035b7bda91c08748658fc52f5be41, 0xc7363fe61098c44f58811d9c4cc24d9,
   0x1c6c6596500910dd34f8e268c6091206, 0xc09f33df8ca98091b5f6ab4d5030889e,
   0xccec5021eda00cd5407eba9494fcac47, 0x101f066831009c99c170f3b102c536df,
   0xbaa83987c58aa1ab76d0573e0554d530, 0x665b6fce192a31e7f7de1e1b936d4fa8,
   0x6a280c307823bda302560fc257a16b71, 0xb6db5a79a4832def835846e7c198f1e9,
   0xa6c45c119583b1764228b556c35dc736, 0x7a370a584923213ac326fc7355645dae,
   0x764469a6282aad7e36aeedaa91a87977, 0xaab73feff48a3d32b7a0a48f0791e3ef],
  [0x0, 0x33971862258514cdc74f354603adc4ea,
   0x617c87c26df1ef0b2f347fc406282c8a, 0x52eb9fa04874fbc6e87b4a820585e860,
   0x4a4bd49c1ecea5fc6ad7197d3edccd97, 0x79dcccfe3b4bb131ad982c3b3d71097d,
   0x2b37535e733f4af745e366b938f4e11d, 0x18a04b3c56ba5e3a82ac53ff3b5925f7,
   0x2795d6fc74e7fc0c36668b0de91ff4ec, 0x1402ce9e5162e8c1f129be4beab23006,
   0x46e9513e191613071952f4c9ef37d866, 0x757e495c3c9307cade1dc18fec9a1c8c,
   0x6dde02606a2959f05cb19270d7c3397b, 0x5e491a024fac4d3d9bfea736d46efd91,
   0xca285a207d8b6fb7385edb4d1eb15f1, 0x3f359dc0225da236b4cad8f2d246d11b],
  [0x0, 0xc0d1976ea5455554c2096abb7235e962,
   0x6c0d7a85445a8800a2edf3679fd4e48c, 0xacdcedebe11fdd5460e499dcede10dee,
   0xd9f2109b3083af13f8b426369571b461, 0x192387f595c6fa473abd4c8de7445d03,
   0xb5ff6a1e74d927135a59d5510aa550ed, 0x752efd70d19c72479850bfea7890b98f,
   0xb54abc3bd140748d4de7760b2db33aa8, 0x759b2b55740521d98fee1cb05f86d3ca,
   0xd947c6be951afc8def0a856cb267de24, 0x199651d0305fa9d92d03efd7c0523746,
   0x6cb8aca0e1c3db9eb553503db8c28ec9, 0xac693bce44868eca775a3a86caf767ab,
   0xb5d625a599539e17bea35a27166a45, 0xc064414b00dc06cad5b7c9e155238327],
  [0x0, 0x31d65e4affbe524cfdbb283042c5594a,
   0x49e13da6e5459281a4600316cd099045, 0x783763ec1afbc0cd59db2b268fccc90f,
   0x5fb5012218b9acb4f80cbfba097ea08f, 0x6e635f68e707fef805b7978a4bbbf9c5,
   0x16543c84fdfc3e355c6cbcacc47730ca, 0x278262ce02426c79a1d7949c86b26980,
   0x34c01d17cb358d49dc618627693d06b5, 0x516435d348bdf0521daae172bf85fff,
   0x7d2120b12e701fc878018531a43496f0, 0x4cf77efbd1ce4d8485baad01e6f1cfba,
   0x6b751c35d38c21fd246d399d6043a63a, 0x5aa3427f2c3273b1d9d611ad2286ff70,
   0x2294219336c9b37c800d3a8bad4a367f, 0x13427fd9c977e1307db612bbef8f6f35],
  [0x0, 0x86afb75f6d97ea3f2c17fdf40fac1b8e,
   0xf7e8e7e5a39d52ca49b256380fc953a1, 0x714750bace0ab8f565a5abcc0065482f,
   0xfc7379867a9556b8344a7a79d331d0b2, 0x7adcced91702bc87185d878ddc9dcb3c,
   0xb9b9e63d90804727df82c41dcf88313, 0x8d34293cb49fee4d51efd1b5d354989d,
   0x97cf9eb421cac6e4fc51f1f844df78e3, 0x116029eb4c5d2cdbd0460c0c4b73636d,
   0x602779518257942eb5e3a7c04b162b42, 0xe688ce0eefc07e1199f45a3444ba30cc,
   0x6bbce7325b5f905cc81b8b8197eea851, 0xed13506d36c87a63e40c76759842b3df,
   0x9c5400d7f8c2c29681a9ddb99827fbf0, 0x1afbb788955528a9adbe204d978be07e],
  [0x0, 0xaf4ff53dbaa319d765f5955a88dc4608,
   0xd77efae1d11c63934af2742c784821fb, 0x78310fdc6bbf7a442f07e176f09467f3,
   0xdb84722209e21f3d1cc917bd55264b94, 0x74cb871fb34106ea793c82e7ddfa0d9c,
   0xcfa88c3d8fe7cae563b63912d6e6a6f, 0xa3b57dfe625d657933cef6cba5b22c67,
   0xb83c0f9a87374f95817a83be7413d4ed, 0x1773faa73d945642e48f16e4fccf92e5,
   0x6f42f57b562b2c06cb88f7920c5bf516, 0xc00d0046ec8835d1ae7d62c88487b31e,
   0x63b87db88ed550a89db3940321359f79, 0xccf788853476497ff8460159a9e9d971,
   0xb4c687595fc9333bd741e02f597dbe82, 0x1b897264e56a2aecb2b47575d1a1f88a],
  [0x0, 0x32b75970184aea6814fc1ec698c8483f,
   0x26beb27652a7f89e038f0e524c20a2e3, 0x1409eb064aed12f617731094d4e8eadc,
   0xba9f63941d2891238b38163a0bf450ec, 0x88283ae405627b4b9fc408fc933c18d3,
   0x9c21d1e24f8f69bd88b7186847d4f20f, 0xae96889257c583d59c4b06aedf1cba30,
   0x552cde95c72c66459f007e9610b2fd5f, 0x679b87e5df668c2d8bfc6050887ab560,
   0x73926ce3958b9edb9c8f70c45c925fbc, 0x412535938dc174b388736e02c45a1783,
   0xefb3bd01da04f766143868ac1b46adb3, 0xdd04e471c24e1d0e00c4766a838ee58c,
   0xc90d0f7788a30ff817b766fe57660f50, 0xfbba560790e9e590034b7838cfae476f],
  [0x0, 0xa95fa35226136f945c5fb8eef0033a2c,
   0xb8790b9fd09c89b897a969b64c73838a, 0x1126a8cdf68fe62ccbf6d158bc70b9a6,
   0xb85c19f6b5a12d331c64044cd9adbfa9, 0x1103baa493b242a7403bbca229ae8585,
   0x251269653da48b8bcd6dfa95de3c23, 0xa97ab13b432ecb1fd792d51465dd060f,
   0x63abafc3502a2388bd6f1243cc294ab6, 0xcaf40c9176394c1ce130aaad3c2a709a,
   0xdbd2a45c80b6aa302ac67bf5805ac93c, 0x728d070ea6a5c5a47699c31b7059f310,
   0xdbf7b635e58b0ebba10b160f1584f51f, 0x72a81567c398612ffd54aee1e587cf33,
   0x638ebdaa3517870336a27fb959f77695, 0xcad11ef81304e8976afdc757a9f44cb9],
  [0x0, 0x801645285c2c968e497221e9ee974e07,
   0x5d993df60772f1bdd3c0bdd2db87681d, 0xdd8f78de5b5e67339ab29c3b3510261a,
   0xcd916f2905578fcd10dc726072465c3c, 0x4d872a01597b194359ae53899cd1123b,
   0x900852df02257e70c31ccfb2a9c13421, 0x101e17f75e09e8fe8a6eee5b47567a26,
   0x77b0ddd350ca8a97257284ee2f8ff196, 0xf7a698fb0ce61c196c00a507c118bf91,
   0x2a29e02557b87b2af6b2393cf408998b, 0xaa3fa50d0b94eda4bfc018d51a9fd78c,
   0xba21b2fa559d055a35aef68e5dc9adaa, 0x3a37f7d209b193d47cdcd767b35ee3ad,
   0xe7b88f0c52eff4e7e66e4b5c864ec5b7, 0x67aeca240ec36269af1c6ab568d98bb0],
  [0x0, 0x3e1bc57dd621183989311dc09bd835fa,
   0x44ab450dbd98181c8c7e60aaa6fbe31e, 0x7ab080706bb90025054f7d6a3d23d6e4,
   0xc25aeb29b3ca2e07a11c41b6224a4e16, 0xfc412e5465eb363e282d5c76b9927bec,
   0x86f1ae240e52361b2d62211c84b1ad08, 0xb8ea6b59d8732e22a4533cdc1f6998f2,
   0xee4030cfb4d4a6ab72f65d25e028365e, 0xd05bf5b262f5be92fbc740e57bf003a4,
   0xaaeb75c2094cbeb7fe883d8f46d3d540, 0x94f0b0bfdf6da68e77b9204fdd0be0ba,
   0x2c1adbe6071e88acd3ea1c93c2627848, 0x12011e9bd13f90955adb015359ba4db2,
   0x68b19eebba8690b05f947c3964999b56, 0x56aa5b966ca78889d6a561f9ff41aeac],
  [0x0, 0x9020e58dc5121923343b5cf1f5f03fbe,
   0x73c856d1e9394484ed25ec86bafd9e9, 0x971c60e0db818d6b7ae902399e5fe657,
   0xdb40600d41ec7aabc46f47804ee0edcd, 0x4b60858084fe6388f0541b71bb10d273,
   0xdc7ce5605f7feee38abd1948254f3424, 0x4c5c00ed9a6df7c0be8645b9d0bf0b9a,
   0xd180f8d2fd8c33cf060c2cbac8360905, 0x41a01d5f389e2aec3237704b3dc636bb,
   0xd6bc7dbfe31fa78748de7272a399d0ec, 0x469c9832260dbea47ce52e835669ef52,
   0xac098dfbc604964c2636b3a86d6e4c8, 0x9ae07d5279725047f65837cb7326db76,
   0xdfc1db2a2f3dd2c8cb135f2ed793d21, 0x9ddcf83f67e1c40fb88a69031889029f],
  [0x0, 0x5d96295287dcd28f3a208ddabe76330d,
   0x3965ec98b9f37255aaaffb8418cd1c7f, 0x64f3c5ca3e2fa0da908f765ea6bb2f72,
   0xb707edb6e93fed0a983d1d4c208ebfbe, 0xea91c4e46ee33f85a21d90969ef88cb3,
   0x8e62012e50cc9f5f3292e6c83843a3c1, 0xd3f4287cd7104dd008b26b12863590cc,
   0x8c5a7da8108dd08dfc1cbbec255b04c8, 0xd1cc54fa97510202c63c36369b2d37c5,
   0xb53f9130a97ea2d856b340683d9618b7, 0xe8a9b8622ea270576c93cdb283e02bba,
   0x3b5d901ef9b23d876421a6a005d5bb76, 0x66cbb94c7e6eef085e012b7abba3887b,
   0x2387c8640414fd2ce8e5d241d18a709, 0x5fae55d4c79d9d5df4aed0fea36e9404],
  [0x0, 0xbe609822c64efac4bdb4a90bbd7a7965,
   0xc32a53cd0073765b80e872a886673761, 0x7d4acbefc63d8c9f3d5cdba33b1d4e04,
   0x3056f73947b27365eb9b9d00930ce919, 0x8e366f1b81fc89a1562f340b2e76907c,
   0xf37ca4f447c1053e6b73efa8156bde78, 0x4d1c3cd6818ffffad6c746a3a811a71d,
   0x57111050db71e8f172976b6cefed468a, 0xe97188721d3f1235cf23c26752973fef,
   0x943b439ddb029eaaf27f19c4698a71eb, 0x2a5bdbbf1d4c646e4fcbb0cfd4f0088e,
   0x6747e7699cc39b94990cf66c7ce1af93, 0xd9277f4b5a8d615024b85f67c19bd6f6,
   0xa46db4a49cb0edcf19e484c4fa8698f2, 0x1a0d2c865afe170ba4502dcf47fce197],
  [0x0, 0x68ab8cc156dc98237fbeb11735033e0f,
   0xdc20fb3f44cba24f51573c5ac5f0402f, 0xb48b77fe12173a6c2ee98d4df0f37e20,
   0x7e85ddcdf8d3fd65f2e324d1b72b0ad4, 0x162e510cae0f65468d5d95c6822834db,
   0xa2a526f2bc185f2aa3b4188b72db4afb, 0xca0eaa33eac4c709dc0aa99c47d874f4,
   0x5ae97bfc8b0d4156b9ad1c1e2cc9e4d6, 0x3242f73dddd1d975c613ad0919cadad9,
   0x86c980c3cfc6e319e8fa2044e939a4f9, 0xee620c02991a7b3a97449153dc3a9af6,
   0x246ca63173debc334b4e38cf9be2ee02, 0x4cc72af02502241034f089d8aee1d00d,
   0xf84c5d0e37151e7c1a1904955e12ae2d, 0x90e7d1cf61c9865f65a7b5826b119022],
  [0x0, 0x418e0f13b0e8d1bb5872fc94c81492e0,
   0xfb19fe1f25617968a2b7e5d477be2607, 0xba97f10c9589a8d3fac51940bfaab4e7,
   0x9806ffbe2f6fa0f10548e31d22cf22fa, 0xd988f0ad9f87714a5d3a1f89eadbb01a,
   0x631f01a10a0ed999a7ff06c9557104fd, 0x22910eb2bae60822ff8dfa5d9d65961d,
   0x527a86bc8dad6cb7e983ad82980b290d, 0x13f489af3d45bd0cb1f15116501fbbed,
   0xa96378a3a8cc15df4b344856efb50f0a, 0xe8ed77b01824c4641346b4c227a19dea,
   0xca7c7902a2c2cc46eccb4e9fbac40bf7, 0x8bf27611122a1dfdb4b9b20b72d09917,
   0x3165871d87a3b52e4e7cab4bcd7a2df0, 0x70eb880e374b6495160e57df056ebf10],
  [0x0, 0xecf20def95dc6fad892724367ce36fc1,
   0x8a667720bcb2e0797f1cf11fa64b70f6, 0x66947acf296e8fd4f63bd529daa81f37,
   0x256d6e504bd5984879d7721d76136f99, 0xc99f63bfde09f7e5f0f0562b0af00058,
   0xaf0b1970f767783106cb8302d0581f6f, 0x43f9149f62bb179c8feca734acbb70ae,
   0x7bee011ae28369a0befe3246bab08558, 0x971c0cf5775f060d37d91670c653ea99,
   0xf188763a5e3189d9c1e2c3591cfbf5ae, 0x1d7a7bd5cbede67448c5e76f60189a6f,
   0x5e836f4aa956f1e8c729405bcca3eac1, 0xb27162a53c8a9e454e0e646db0408500,
   0xd4e5186a15e41191b835b1446ae89a37, 0x3817158580387e3c31129572160bf5f6],
  [0x0, 0x808facdd583ffac7c67e0103d8e8ce74,
   0xd86b5be974460995930a9a2bc17a16ee, 0x58e4f7342c79f35255749b281992d89a,
   0xdb0888b8591c7504654cfbbcfac7ffb7, 0x5b87246501238fc3a332fabf222f31c3,
   0x363d3512d5a7c91f64661973bbde959, 0x83ec7f8c7565865630386094e355272d,
   0x6b4dc7268005eafbca4e16c4ce050a4e, 0xebc26bfbd83a103c0c3017c716edc43a,
   0xb3269ccff443e36e59448cef0f7f1ca0, 0x33a93012ac7c19a99f3a8decd797d2d4,
   0xb0454f9ed9199fffaf02ed7834c2f5f9, 0x30cae34381266538697cec7bec2a3b8d,
   0x682e1477ad5f966a3c087753f5b8e317, 0xe8a1b8aaf5606cadfa7676502d502d63],
  [0x0, 0x37eaaa64215d6958880271e4107118fc,
   0xf7ba15ac3bf2d2d78399db997616bef9, 0xc050bfc81aafbb8f0b9baa7d6667a605,
   0x54723d072f904423b7cca33d5a52be11, 0x639897630ecd2d7b3fced2d94a23a6ed,
   0xa3c828ab146296f4345578a42c4400e8, 0x942282cf353fffacbc5709403c351814,
   0x13b22048b75d67a6fb83ae8b8420018d, 0x24588a2c96000efe7381df6f94511971,
   0xe40835e48cafb571781a7512f236bf74, 0xd3e29f80adf2dc29f01804f6e247a788,
   0x47c01d4f98cd23854c4f0db6de72bf9c, 0x702ab72bb9904addc44d7c52ce03a760,
   0xb07a08e3a33ff152cfd6d62fa8640165, 0x8790a2878262980a47d4a7cbb8151999],
  [0x0, 0xf80559f91f18ad993893dd08b75fe84e,
   0xa2884c6a7148c9f5143ae35bcef223f6, 0x5a8d15936e50646c2ca93e5379adcbb8,
   0x3771e7e173765a7165012f9ea459c4fe, 0xcf74be186c6ef7e85d92f29613062cb0,
   0x95f9ab8b023e9384713bccc56aabe708, 0x6dfcf2721d263e1d49a811cdddf40f46,
   0x3b531567ed7d6437970763eebe7187c9, 0xc3564c9ef265c9aeaf94bee6092e6f87,
   0x99db590d9c35adc2833d80b57083a43f, 0x61de00f4832d005bbbae5dbdc7dc4c71,
   0xc22f2869e0b3e46f2064c701a284337, 0xf427ab7f811393dfca959178ad77ab79,
   0xaeaabeecef43f7b3e63caf2bd4da60c1, 0x56afe715f05b5a2adeaf72236385888f],
  [0x0, 0x88d32c0faeb817691afc052e75dbf6f7,
   0xa2be36b4c4d837a6eb507b56f2839c6b, 0x2a6d1abb6a6020cff1ac7e7887586a9c,
   0x2450bded29cd1ac6be624aae402ff24c, 0xac8391e287750dafa49e4f8035f404bb,
   0x86ee8b59ed152d60553231f8b2ac6e27, 0xe3da75643ad3a094fce34d6c77798d0,
   0xc98bb483afd8b404fed9a11208af31b3, 0x4158988c0160a36de425a43c7d74c744,
   0x6b3582376b0083a21589da44fa2cadd8, 0xe3e6ae38c5b894cb0f75df6a8ff75b2f,
   0xeddb096e8615aec240bbebbc4880c3ff, 0x6508256128adb9ab5a47ee923d5b3508,
   0x4f653fda42cd9964abeb90eaba035f94, 0xc7b613d5ec758e0db11795c4cfd8a963],
  [0x0, 0x9ab5458e93be1bf12020231387978d5c,
   0x116b001186e0e0765a9bb463ced439ce, 0x8bde459f155efb877abb97704943b492,
   0xb7acfec4a33977aebac2035c20eecaf9, 0x2d19bb4a30876c5f9ae2204fa77947a5,
   0xa6c7fed525d997d8e059b73fee3af337, 0x3c72bb5bb6678c29c079942c69ad7e6b,
   0x874409791a8816d65743cc3a09152442, 0x1df14cf789360d277763ef298e82a91e,
   0x962f09689c68f6a00dd87859c7c11d8c, 0xc9a4ce60fd6ed512df85b4a405690d0,
   0x30e8f7bdb9b16178ed81cf6629fbeebb, 0xaa5db2332a0f7a89cda1ec75ae6c63e7,
   0x2183f7ac3f51810eb71a7b05e72fd775, 0xbb36b222acef9aff973a581660b85a29],
  [0x0, 0x11ddd2eae864b0106a0a4413901fa9cc,
   0xae6b33b8ba2230ce94d4e53916217571, 0xbfb6e152524680defedea12a863edcbd,
   0x99e97271308f3540ccb85668c2c571cc, 0x8834a09bd8eb8550a6b2127b52dad800,
   0x378241c98aad058e586cb351d4e404bd, 0x265f932362c9b59e3266f74244fbad71,
   0xb53090aeaad2dc04eb10f9508a7a0b37, 0xa4ed424442b66c14811abd431a65a2fb,
   0x1b5ba31610f0ecca7fc41c699c5b7e46, 0xa8671fcf8945cda15ce587a0c44d78a,
   0x2cd9e2df9a5de94427a8af3848bf7afb, 0x3d043035723959544da2eb2bd8a0d337,
   0x82b2d167207fd98ab37c4a015e9e0f8a, 0x936f038dc81b699ad9760e12ce81a646],
  [0x0, 0x908622bc039f8a3af866896e07e11824,
   0x1c3cc22f579a7d4f29c062c51c58ce05, 0x8cbae0935405f775d1a6ebab1bb9d621,
   0x6f5ac0355598d0819a0a7ce746033999, 0xffdce28956075abb626cf58941e221bd,
   0x7366021a0202adceb3ca1e225a5bf79c, 0xe3e020a6019d27f44bac974c5dbaefb8,
   0x2456e55dd964c5b9fda767b7a62739a2, 0xb4d0c7e1dafb4f8305c1eed9a1c62186,
   0x386a27728efeb8f6d4670572ba7ff7a7, 0xa8ec05ce8d6132cc2c018c1cbd9eef83,
   0x4b0c25688cfc153867ad1b50e024003b, 0xdb8a07d48f639f029fcb923ee7c5181f,
   0x5730e747db6668774e6d7995fc7cce3e, 0xc7b6c5fbd8f9e24db60bf0fbfb9dd61a],
  [0x0, 0x76bd2b42623a9ad10c4a97f87e814a88,
   0x8edadeab21645c5fd35d6a50b061b283, 0xf867f5e9435ec68edf17fda8cee0f80b,
   0xfb5e686cf2248739b181c6812d741248, 0x8de3432e901e1de8bdcb517953f558c0,
   0x7584b6c7d340db6662dcacd19d15a0cb, 0x3399d85b17a41b76e963b29e394ea43,
   0x49314544410f85218d721fd685f7e2ea, 0x3f8c6e0623351ff08138882efb76a862,
   0xc7eb9bef606bd97e5e2f758635965069, 0xb156b0ad025143af5265e27e4b171ae1,
   0xb26f2d28b32b02183cf3d957a883f0a2, 0xc4d2066ad11198c930b94eafd602ba2a,
   0x3cb5f383924f5e47efaeb30718e24221, 0x4a08d8c1f075c496e3e424ff666308a9],
  [0x0, 0x5ca8ce1c74ac1e11be34e3a17fc88a38,
   0xa35feef8cedeafb968ac1a538fcf9, 0x5ca2fbe29b20f3fb45a26960daf076c1,
   0x37eaebf3544c7bdc64f3b9c876aaab91, 0x6b4225ef20e065cddac75a69096221a9,
   0x37e0de0dbbc096369f653309d3925768, 0x6b481011cf6c88272151d0a8ac5add50,
   0x7f34b9c3035eca65794564a48c5e8c89, 0x239c77df77f2d474c7718705f39606b1,
   0x7f3e8c3decd2278f82d3ee6529667070, 0x23964221987e399e3ce70dc456aefa48,
   0x48de52305712b1b91db6dd6cfaf42718, 0x14769c2c23beafa8a3823ecd853cad20,
   0x48d467ceb89e5c53e62057ad5fccdbe1, 0x147ca9d2cc3242425814b40c200451d9],
  [0x0, 0xe37786b237fe3b58f34975be8a711c65,
   0x6c6bdc45dc88a2ac17edbd0f93fc4ef4, 0x8f1c5af7eb7699f4e4a4c8b1198d5291,
   0xcb56b0eac36d6584a615bfc51b1c0c81, 0x28213658f4935edc555cca7b916d10e4,
   0xa73d6caf1fe5c728b1f802ca88e04275, 0x444aea1d281bfc7042b1777402915e10,
   0xaae97a0e0493c048c644a85a870c125c, 0x499efcbc336dfb10350ddde40d7d0e39,
   0xc682a64bd81b62e4d1a9155514f05ca8, 0x25f520f9efe559bc22e060eb9e8140cd,
   0x61bfcae4c7fea5cc6051179f9c101edd, 0x82c84c56f0009e9493186221166102b8,
   0xdd416a11b76076077bcaa900fec5029, 0xeea390132c883c3884f5df2e859d4c4c],
  [0x0, 0x9937005616b946726c3368c9c7df0925,
   0xd535462ee5edba32476f79c2461f7767, 0x4c024678f354fc402b5c110b81c07e42,
   0xb2816f9c8be82fa9f09b2637f9c4e06c, 0x2bb66fca9d5169db9ca84efe3e1be949,
   0x67b429b26e05959bb7f45ff5bfdb970b, 0xfe8329e478bcd3e9dbc7373c78049e2e,
   0x7a21d86172fdfd3cd220efacdb58052f, 0xe316d8376444bb4ebe1387651c870c0a,
   0xaf149e4f9710470e954f966e9d477248, 0x36239e1981a9017cf97cfea75a987b6d,
   0xc8a0b7fdf915d29522bbc99b229ce543, 0x5197b7abefac94e74e88a152e543ec66,
   0x1d95f1d31cf868a765d4b05964839224, 0x84a2f1850a412ed509e7d890a35c9b01],
  [0x0, 0x1dda2a206e3a674161518f68dedc57a2,
   0x848aa4b4fe5817f6120ddbcf94611b31, 0x99508e94906270b7735c54a74abd4c93,
   0xe4e87859f05e40449a8714c42a7b0df6, 0xf93252799e642705fbd69bacf4a75a54,
   0x6062dced0e0657b2888acf0bbe1a16c7, 0x7db8f6cd603c30f3e9db406360c64165,
   0x2158fc0ae2f07f091566838a04b08724, 0x3c82d62a8cca184874370ce2da6cd086,
   0xa5d258be1ca868ff076b584590d19c15, 0xb808729e72920fbe663ad72d4e0dcbb7,
   0xc5b0845312ae3f4d8fe1974e2ecb8ad2, 0xd86aae737c94580ceeb01826f017dd70,
   0x413a20e7ecf628bb9dec4c81baaa91e3, 0x5ce00ac782cc4ffafcbdc3e96476c641],
  [0x0, 0x4b9458649e1b93d9fdc3b3568de1ac6f,
   0xafdb30bc024bf1c324a7d4fc2982a076, 0xe44f68d89c50621ad96467aaa4630c19,
   0x9e7dbf8b9e3b8c0f4add82f58241737, 0x4273839c27f82b19096e6b79d5c5bb58,
   0xa63ceb44bba84903d00a0cd371a6b741, 0xeda8b32025b3dada2dc9bf85fc471b2e,
   0x3aba1d04cb1dbeab06fdd6826176d0cb, 0x712e456055062d72fb3e65d4ec977ca4,
   0x95612db8c9564f68225a027e48f470bd, 0xdef575dc574ddcb1df99b128c515dcd2,
   0x335dc6fc72fe066bf2500ead3952c7fc, 0x78c99e98ece595b20f93bdfbb4b36b93,
   0x9c86f64070b5f7a8d6f7da5110d0678a, 0xd712ae24eeae64712b3469079d31cbe5],
  [0x0, 0x477923bf9c451d32e110bc7b1f26f16f,
   0x36328f4ccecc5150dd95a325b4262ae5, 0x714bacf352894c623c851f5eab00db8a,
   0x512f61a476ebf4f9ef21cc8039b55c6d, 0x1656421beaaee9cb0e3170fb2693ad02,
   0x671deee8b827a5a932b46fa58d937688, 0x2064cd572462b89bd3a4d3de92b587e7,
   0x31678ba116f3d561c256cde21073daf7, 0x761ea81e8ab6c853234671990f552b98,
   0x75504edd83f84311fc36ec7a455f012, 0x402c2752447a9903fed3d2bcbb73017d,
   0x6048ea05601821982d77016229c6869a, 0x2731c9bafc5d3caacc67bd1936e077f5,
   0x567a6549aed470c8f0e2a2479de0ac7f, 0x110346f632916dfa11f21e3c82c65d10]]

/-- `POLYVAL_NIBBLE_POW_2_N_TABLE[4]`, `packed_polyval_128.rs:195-3664`. -/
def nibblePow4 : List (List Nat) := [
  [0x0, 0xc2000000000000000000000000000001,
   0x7703f6ec8d53a385a2a14d783f73de76, 0xb503f6ec8d53a385a2a14d783f73de77,
   0x54ca7f8c8b592ccac6f161e9e30cf2e0, 0x96ca7f8c8b592ccac6f161e9e30cf2e1,
   0x23c98960060a8f4f64502c91dc7f2c96, 0xe1c98960060a8f4f64502c91dc7f2c97,
   0x3c0c76e52d2202aa64212d04170ae193, 0xfe0c76e52d2202aa64212d04170ae192,
   0x4b0f8009a071a12fc680607c28793fe5, 0x890f8009a071a12fc680607c28793fe4,
   0x68c60969a67b2e60a2d04cedf4061373, 0xaac60969a67b2e60a2d04cedf4061372,
   0x1fc5ff852b288de500710195cb75cd05, 0xddc5ff852b288de500710195cb75cd04],
  [0x0, 0x7dab122fcc7ce98969ebdb2dce3d33ec,
   0xc5d6fffaa8ee25664b7b67eab4ca55a9, 0xb87dedd56492ccef2290bcc77af76645,
   0x82702759d071360d2589ee73e3adf700, 0xffdb35761c0ddf844c62355e2d90c4ec,
   0x47a6d8a3789f136b6ef289995767a2a9, 0x3a0dca8cb4e3fae2071952b4995a9145,
   0xa6a325477e616196a5842e7c0bc6eaf6, 0xdb083768b21d881fcc6ff551c5fbd91a,
   0x6375dabdd68f44f0eeff4996bf0cbf5f, 0x1edec8921af3ad79871492bb71318cb3,
   0x24d3021eae10579b800dc00fe86b1df6, 0x59781031626cbe12e9e61b2226562e1a,
   0xe105fde406fe72fdcb76a7e55ca1485f, 0x9caeefcbca829b74a29d7cc8929c7bb3],
  [0x0, 0xd7486d9b261049305e9bbbf7308de185,
   0xe645483887c6c13f5fe8afec2eedda6, 0xd92c3918ae6c2523ab653109f2633c23,
   0x3f4301880467d49bba16188391ee81ed, 0xe80b6c1322779dabe48da374a1636068,
   0x3127550b8c1bb8884fe8927d53005c4b, 0xe66f3890aa0bf1b81173298a638dbdce,
   0x5a0a194928a7d0b8cd7fec8d196aa6fb, 0x8d4274d20eb7998893e4577a29e7477e,
   0x546e4dcaa0dbbcab38816673db847b5d, 0x8326205186cbf59b661add84eb099ad8,
   0x654918c12cc004237769f40e88842716, 0xb201755a0ad04d1329f24ff9b809c693,
   0x6b2d4c42a4bc683082977ef04a6afab0, 0xbc6521d982ac2100dc0cc5077ae71b35],
  [0x0, 0x471187f12dd6a3adf0aea8e40d64ea51,
   0x443c565a22785dae724ace26b1887c64, 0x32dd1ab0faefe0382e466c2bcec9635,
   0x5d1d6992372a293b52232ba57dea365, 0x42c051680ea4013e458c9a5e5aba4934,
   0x41ed80c3010aff3dc768fc9ce656df01, 0x6fc07322cdc5c9037c65478eb323550,
   0x12906c7b1f65f851824378a6736b89c8, 0x5581eb8a32b35bfc72edd0427e0f6399,
   0x56ac3a213d1da5fff009b680c2e3f5ac, 0x11bdbdd010cb065200a71e64cf871ffd,
   0x1741bae23c175ac237614a1c24b52aad, 0x50503d1311c1f96fc7cfe2f829d1c0fc,
   0x537decb81e6f076c452b843a953d56c9, 0x146c6b4933b9a4c1b5852cde9859bc98],
  [0x0, 0xe6d8c974286d6135e8de71ed19e8b79d,
   0x9bab7591453db7088c0876d17ad67917, 0x7d73bce56d50d63d64d6073c633ece8a,
   0x5c739c11c9e7a20484e77693d15f1496, 0xbaab5565e18ac3316c39077ec8b7a30b,
   0xc7d8e9808cda150c08ef0042ab896d81, 0x210020f4a4b77439e03171afb261da1c,
   0xd9d60a97abe327d42111f5aedfe6fab0, 0x3f0ec3e3838e46e1c9cf8443c60e4d2d,
   0x427d7f06eede90dcad19837fa53083a7, 0xa4a5b672c6b3f1e945c7f292bcd8343a,
   0x85a59686620485d0a5f6833d0eb9ee26, 0x637d5ff24a69e4e54d28f2d0175159bb,
   0x1e0ee317273932d829fef5ec746f9731, 0xf8d62a630f5453edc12084016d8720ac],
  [0x0, 0x382c99dc29b3b0c6bb53bdd68991e880,
   0xea3d022c495679f3e25d9b5e344d2321, 0xd2119bf060e5c935590e2688bddccba1,
   0x9d78c40085c0ac67f31d4aae93075c, 0x38b1e1182936706adca0a09c2702efdc,
   0xeaa07ae849d3b95f85ae86149ade247d, 0xd28ce334606009993efd3bc2134fccfd,
   0x8a262188c4f68b8ede0ab5da413d6247, 0xb20ab854ed453b486559080cc8ac8ac7,
   0x601b23a48da0f27d3c572e8475704166, 0x5837ba78a41342bb87049352fce1a9e6,
   0x8abb594cc4734b22b9f9a890efae651b, 0xb297c090edc0fbe402aa1546663f8d9b,
   0x60865b608d2532d15ba433cedbe3463a, 0x58aac2bca4968217e0f78e185272aeba],
  [0x0, 0xe87b76e29fedbeb5243c28200fdad1b2,
   0x944d727f5e66722a8d59d2981dba79d0, 0x7c36049dc18bcc9fa965fab81260a862,
   0x32bd1107f5dfbe575a4fa7b08bd7ff60, 0xdac667e56a3200e27e738f90840d2ed2,
   0xa6f06378abb9cc7dd7167528966d86b0, 0x4e8b159a345472c8f32a5d0899b75702,
   0x24a12305e2612551ddfb35b16bfb3119, 0xccda55e77d8c9be4f9c71d916421e0ab,
   0xb0ec517abc07577b50a2e729764148c9, 0x5897279823eae9ce749ecf09799b997b,
   0x161c320217be9b0687b49201e02cce79, 0xfe6744e0885325b3a388ba21eff61fcb,
   0x8251407d49d8e92c0aed4099fd96b7a9, 0x6a2a369fd63557992ed168b9f24c661b],
  [0x0, 0xdc02b40e5fd93f7c91fd920d9b8a9030,
   0x14b94861762c981623c669d856e4f987, 0xc8bbfc6f29f5a76ab23bfbd5cd6e69b7,
   0x90835526c4cae2d633b9c54f6fb13fd1, 0x4c81e1289b13ddaaa2445742f43bafe1,
   0x843a1d47b2e67ac0107fac973955c656, 0x5838a949ed3f45bc81823e9aa2df5666,
   0x6b792fd10b1be2b004d9049e5b9d6f1b, 0xb77b9bdf54c2ddcc95249693c017ff2b,
   0x7fc067b07d377aa6271f6d460d79969c, 0xa3c2d3be22ee45dab6e2ff4b96f306ac,
   0xfbfa7af7cfd100663760c1d1342c50ca, 0x27f8cef990083f1aa69d53dcafa6c0fa,
   0xef433296b9fd987014a6a80962c8a94d, 0x33418698e624a70c855b3a04f942397d],
  [0x0, 0x7488bc49e2aabcd567f33d89e2519e3e,
   0xab1b8ad19fcab40c8f0209ac78d446a3, 0xdf9336987d6008d9e8f134259a85d89d,
   0x95fde4358fe00462c88ce028778e4398, 0xe175587c6d4ab8b7af7fdda195dfdda6,
   0x3ee66ee4102ab06e478ee9840f5a053b, 0x4a6ed2adf2800cbb207dd40ded0b9b05,
   0x8c3a321581bbfc7488531522f7791b23, 0xf8b28e5c631140a1efa028ab1528851d,
   0x2721b8c41e71487807511c8e8fad5d80, 0x53a9048dfcdbf4ad60a221076dfcc3be,
   0x19c7d6200e5bf81640dff50a80f758bb, 0x6d4f6a69ecf144c3272cc88362a6c685,
   0xb2dc5cf191914c1acfddfca6f8231e18, 0xc654e0b8733bf0cfa82ec12f1a728026],
  [0x0, 0x579c5eb7b1a15845f7228b9d2fda5149,
   0x694a21be0942f622658ca12aac65aa51, 0x3ed67f09b8e3ae6792ae2ab783bffb18,
   0x564892d7a833d4f6814d55b64608af5a, 0x1d4cc6019928cb3766fde2b69d2fe13,
   0x3f02b369a17122d4e4c1f49cea6d050b, 0x689eedde10d07a9113e37f01c5b75442,
   0xd0c239be5b85c03659577a75ed8ab478, 0x875e6709ea249873ae75f1e8c250e531,
   0xb988180052c736143cdbdb5f41ef1e29, 0xee1446b7e3666e51cbf950c26e354f60,
   0x868aab69f3b614c0d81a2fc3ab821b22, 0xd116f5de42174c852f38a45e84584a6b,
   0xefc08ad7faf4e2e2bd968ee907e7b173, 0xb85cd4604b55baa74ab40574283de03a],
  [0x0, 0x737c53b4fd665e295cb07646ecd8a094,
   0x2be3619b3f114870b05cb324743eaa08, 0x589f322fc2771659ececc56298e60a9c,
   0xadef10de133053d9be972d59704f980c, 0xde93436aee560df0e2275b1f9c973898,
   0x860c71452c211ba90ecb9e7d04713204, 0xf57022f1d1474580527be83be8a99290,
   0x95cc68c05ae5e49e951206ea5dc3546c, 0xe6b03b74a783bab7c9a270acb11bf4f8,
   0xbe2f095b65f4acee254eb5ce29fdfe64, 0xcd535aef9892f2c779fec388c5255ef0,
   0x3823781e49d5b7472b852bb32d8ccc60, 0x4b5f2baab4b3e96e77355df5c1546cf4,
   0x13c0198576c4ff379bd9989759b26668, 0x60bc4a318ba2a11ec769eed1b56ac6fc],
  [0x0, 0xc272c13ddeef2e47ffe399559a1ab3de,
   0x2a3369263f6cbc220c903e48e56490a5, 0xe841a81be1839265f373a71d7f7e237b,
   0x8919ac63fa56cf55c43191b3396a546e, 0x4b6b6d5e24b9e1123bd208e6a370e7b0,
   0xa32ac545c53a7377c8a1affbdc0ec4cb, 0x615804781bd55d30374236ae46147715,
   0xfb0cc004fb752bc7912742177706fc4e, 0x397e0139259a05806ec4db42ed1c4f90,
   0xd13fa922c41997e59db77c5f92626ceb, 0x134d681f1af6b9a26254e50a0878df35,
   0x72156c670123e4925516d3a44e6ca820, 0xb067ad5adfcccad5aaf54af1d4761bfe,
   0x582605413e4f58b05986edecab083885, 0x9a54c47ce0a076f7a66574b931128b5b],
  [0x0, 0x5d4433e3b26cd30c413f5344a037f15c,
   0xbd0fc97e645af2884e1daededaa95aa4, 0xe04bfa9dd63621840f22fd9a7a9eabf8,
   0x31fd6fc23a616c6790fb0029879f2b26, 0x6cb95c21880dbf6bd1c4536d27a8da7a,
   0x8cf2a6bc5e3b9eefdee6aef75d367182, 0xd1b6955fec574de39fd9fdb3fd0180de,
   0xf03215bea3d2e182159ba5935f5c738e, 0xad76265d11be328e54a4f6d7ff6b82d2,
   0x4d3ddcc0c788130a5b860b4d85f5292a, 0x1079ef2375e4c0061ab9580925c2d876,
   0xc1cf7a7c99b38de58560a5bad8c358a8, 0x9c8b499f2bdf5ee9c45ff6fe78f4a9f4,
   0x7cc0b302fde97f6dcb7d0b64026a020c, 0x218480e14f85ac618a425820a25df350],
  [0x0, 0x1891d11b1c939c5f25e7762dc554603d,
   0xb1089d06b905e39fa515ab09c74a861e, 0xa9994c1da5967fc080f2dd24021ee623,
   0x1a1b4c1d48d2945a8d5a341d48dad2b2, 0x28a9d0654410805a8bd42308d8eb28f,
   0xab13d11bf1d777c5284f9f148f9054ac, 0xb3820000ed44eb9a0da8e9394ac43491,
   0xd1de37d47d6374e64c4ec3bc72b7ad33, 0xc94fe6cf61f0e8b969a9b591b7e3cd0e,
   0x60d6aad2c4669779e95b68b5b5fd2b2d, 0x78477bc9d8f50b26ccbc1e9870a94b10,
   0xcbc57bc935b1e0bcc114f7a13a6d7f81, 0xd354aad229227ce3e4f3818cff391fbc,
   0x7acde6cf8cb4032364015ca8fd27f99f, 0x625c37d490279f7c41e62a85387399a2],
  [0x0, 0x2013a8035655083902616bb6fc17139a,
   0x2c50df9ef340b30aed32668c35a4cd65, 0xc43779da515bb33ef530d3ac9b3deff,
   0xa24ae3fa23193b1388ed47e40b5b338e, 0x82594bf9754c332a8a8c2c52f74c2014,
   0x8e1a3c64d059881965df21683efffeeb, 0xae099467860c802067be4adec2e8ed71,
   0x5c4a1399881748645d59f0ae26acac19, 0x7c59bb9ade42405d5f389b18dabbbf83,
   0x701acc077b57fb6eb06b96221308617c, 0x500964042d02f357b20afd94ef1f72e6,
   0xfe00f063ab0e7377d5b4b74a2df79f97, 0xde135860fd5b7b4ed7d5dcfcd1e08c0d,
   0xd2502ffd584ec07d3886d1c6185352f2, 0xf24387fe0e1bc8443ae7ba70e4444168],
  [0x0, 0xd5c8fc3e3facfa5e21524c0f90a45677,
   0x92acf556332a9c71eb33310d57bee7dc, 0x476409680c86662fca617d02c71ab1ab,
   0x694d585246490028b5d13a6a2d462eb4, 0xbc85a46c79e5fa7694837665bde278c3,
   0xfbe1ad0475639c595ee20b677af8c968, 0x2e29513a4acf66077fb04768ea5c9f1f,
   0xa2a4c4ef17952694aaa0077bda22b6cf, 0x776c38d12839dcca8bf24b744a86e0b8,
   0x300831b924bfbae5419336768d9c5113, 0xe5c0cd871b1340bb60c17a791d380764,
   0xcbe99cbd51dc26bc1f713d11f764987b, 0x1e2160836e70dce23e23711e67c0ce0c,
   0x594569eb62f6bacdf4420c1ca0da7fa7, 0x8c8d95d55d5a4093d5104013307e29d0],
  [0x0, 0xd972c02c89f702b07dab51a7f679ffb0,
   0x1961ae69880a1c134ba16d4d84657d90, 0xc0136e4501fd1ea3360a3cea721c8220,
   0xa8bb6b42483564e5fbcfbd3a792b5fde, 0x71c9ab6ec1c266558664ec9d8f52a06e,
   0xb1dac52bc03f78f6b06ed077fd4e224e, 0x68a8050749c87a46cdc581d00b37ddfe,
   0x85846908d6860d124fab0841fcdd687c, 0x5cf6a9245f710fa2320059e60aa497cc,
   0x9ce5c7615e8c1101040a650c78b815ec, 0x4597074dd77b13b179a134ab8ec1ea5c,
   0x2d3f024a9eb369f7b464b57b85f637a2, 0xf44dc26617446b47c9cfe4dc738fc812,
   0x345eac2316b975e4ffc5d83601934a32, 0xed2c6c0f9f4e7754826e8991f7eab582],
  [0x0, 0xccc1a5bd9fb80269daa5ceebb436af36,
   0x9f0f46b2b4bf4d60f459d50f5b9f9b2, 0xc53151d6b4f3f6bfd5e053bb418f5684,
   0xacb498a0cedbe41e2271b5de16e4581e, 0x60753d1d5163e677f8d47b35a2d2f728,
   0xa5446ccbe59010c82d34288ee35da1ac, 0x6985c9767a2812a1f791e665576b0e9a,
   0x9902204ca74950c53b4d0bb817932996, 0x55c385f138f152ace1e8c553a3a586a0,
   0x90f2d4278c02a413340896e8e22ad024, 0x5c33719a13baa67aeead5803561c7f12,
   0x35b6b8ec6992b4db193cbe6601777188, 0xf9771d51f62ab6b2c399708db541debe,
   0x3c464c8742d9400d16792336f4ce883a, 0xf087e93add614264ccdceddd40f8270c],
  [0x0, 0x861ac5f69a27e3a2063431484a3ce40,
   0xed28c206d57adee4afdbf432a48341ee, 0xe5496e59bcd8a0de8fb8b72620208fae,
   0x9d7082a8d388802bffa5ab31c0eb91e7, 0x95112ef7ba2afe11dfc6e82544485fa7,
   0x705840ae06f25ecf507e5f036468d009, 0x7839ecf16f5020f5701d1c17e0cb1e49,
   0xc8fc4cd75a5dbe1d1d4ffdffe957c0c8, 0xc09de08833ffc0273d2cbeeb6df40e88,
   0x25d48ed18f2760f9b29409cd4dd48126, 0x2db5228ee6851ec392f74ad9c9774f66,
   0x558cce7f89d53e36e2ea56ce29bc512f, 0x5ded6220e077400cc28915daad1f9f6f,
   0xb8a40c795cafe0d24d31a2fc8d3f10c1, 0xb0c5a026350d9ee86d52e1e8099cde81],
  [0x0, 0x8e85ce0d3efbc544707b2d75a6f22281,
   0x6f394ee68bdc680a4bbf58e71e7c29f9, 0xe1bc80ebb527ad4e3bc47592b88e0b78,
   0xad930ffcf5dcd7a3988052e6ae563f8e, 0x2316c1f1cb2712e7e8fb7f9308a41d0f,
   0xc2aa411a7e00bfa9d33f0a01b02a1677, 0x4c2f8f1740fb7aeda344277416d834f6,
   0xb46fe8b41656a1252f95a17395c17752, 0x3aea26b928ad64615fee8c06333355d3,
   0xdb56a6529d8ac92f642af9948bbd5eab, 0x55d3685fa3710c6b1451d4e12d4f7c2a,
   0x19fce748e38a7686b715f3953b9748dc, 0x97792945dd71b3c2c76edee09d656a5d,
   0x76c5a9ae68561e8cfcaaab7225eb6125, 0xf84067a356addbc88cd18607831943a4],
  [0x0, 0x30cbc31a0bf4712b1695d906e6dc751f,
   0x6d7940ba931b30a5f70cec7c79331b51, 0x5db283a098ef418ee199357a9fef6e4e,
   0x930f498bc24d8c513fa327a0cfbf9d70, 0xa3c48a91c9b9fd7a2936fea62963e86f,
   0xfe7609315156bcf4c8afcbdcb68c8621, 0xcebdca2b5aa2cddfde3a12da5050f33e,
   0xc82e017093e527b032bff35fe0948f36, 0xf8e5c26a9811569b242a2a590648fa29,
   0xa55741ca00fe1715c5b31f2399a79467, 0x959c82d00b0a663ed326c6257f7be178,
   0x5b2148fb51a8abe10d1cd4ff2f2b1246, 0x6bea8be15a5cdaca1b890df9c9f76759,
   0x36580841c2b39b44fa10388356180917, 0x693cb5bc947ea6fec85e185b0c47c08],
  [0x0, 0xeb308d0dec652ec759ef194a0a37d12d,
   0x1b675cc87619e30ff510a6e96c2ae0e1, 0xf057d1c59a7ccdc8acffbfa3661d31cc,
   0xe90eb3951c5b13df84cb5ab783ee7a10, 0x23e3e98f03e3d18dd2443fd89d9ab3d,
   0xf269ef5d6a42f0d071dbfc5eefc49af1, 0x195962508627de172834e514e5f34bdc,
   0xe6767a80f0b2beeaa87ab67e2dd6dee2, 0xd46f78d1cd7902df195af3427e10fcf,
   0xfd11264886ab5de55d6a109741fc3e03, 0x1621ab456ace7322048509dd4bcbef2e,
   0xf78c915ece9ad352cb1ecc9ae38a4f2, 0xe4484418008c83f2755ef583a40f75df,
   0x141f95dd9af04e3ad9a14a20c2124413, 0xff2f18d0769560fd804e536ac825953e],
  [0x0, 0xed5414aaeb325aaec261dde0fa18b71c,
   0xfca861d84ffa7952361b8f850d3de5b3, 0x11fc7572a4c823fcf47a5265f72552af,
   0xae6cd44712e0b044eee0ed6414127391, 0x4338c0edf9d2eaea2c813084ee0ac48d,
   0x52c4b59f5d1ac916d8fb62e1192f9622, 0xbf90a135b62893b81a9abf01e337213e,
   0xc81bd11acd88869b6b5d73aef9a1a989, 0x254fc5b026badc35a93cae4e03b91e95,
   0x34b3b0c28272ffc95d46fc2bf49c4c3a, 0xd9e7a4686940a5679f2721cb0e84fb26,
   0x6677055ddf6836df85bd9ecaedb3da18, 0x8b2311f7345a6c7147dc432a17ab6d04,
   0x9adf648590924f8db3a6114fe08e3fab, 0x778b702f7ba0152371c7ccaf1a9688b7],
  [0x0, 0xfbad278af713a04999ff484bc5ab2a52,
   0x120ed35bdf2739f178a451d96c735529, 0xe9a3f4d1283499b8e15b1992a9d87f7b,
   0xf356c542a62709c8a5b5ff0a4643ec5e, 0x8fbe2c85134a9813c4ab74183e8c60c,
   0xe158161979003039dd11aed32a30b977, 0x1af531938e13907044eee698ef9b9325,
   0x2d833bb785b05de96b49feba5ee05a43, 0xd62e1c3d72a3fda0f2b6b6f19b4b7011,
   0x3f8de8ec5a97641813edaf6332930f6a, 0xc420cf66ad84c4518a12e728f7382538,
   0xded5fef523975421cefc01b018a3b61d, 0x2578d97fd484f468570349fbdd089c4f,
   0xccdb2daefcb06dd0b658506974d0e334, 0x37760a240ba3cd992fa71822b17bc966],
  [0x0, 0xd430d4b072e18239128c1280d16edfde,
   0xb1900ce26567f281c71431e21f93c687, 0x65a0d852178670b8d5982362cefd1959,
   0x615aa9fa45a2d05dd105eebd0a91bfd4, 0xb56a7d4a37435264c389fc3ddbff600a,
   0xd0caa51820c522dc1611df5f15027953, 0x4fa71a85224a0e5049dcddfc46ca68d,
   0x982293f8f5f20adbcfb1ace24a758d00, 0x4c124748871388e2dd3dbe629b1b52de,
   0x29b29f1a9095f85a08a59d0055e64b87, 0xfd824baae2747a631a298f8084889459,
   0xf9783a02b050da861eb4425f40e432d4, 0x2d48eeb2c2b158bf0c3850df918aed0a,
   0x48e836e0d5372807d9a073bd5f77f453, 0x9cd8e250a7d6aa3ecb2c613d8e192b8d],
  [0x0, 0x42133f4d5e55577d37de8f29792e5906,
   0x8c4b2f6f83ed31050a3b33fc251a3aaf, 0xce581022ddb866783de5bcd55c3463a9,
   0x838f96303c84d610938d268aeeedfaef, 0xc19ca97d62d1816da453a9a397c3a3e9,
   0xfc4b95fbf69e71599b61576cbf7c040, 0x4dd78612e13cb068ae689a5fb2d99946,
   0xe84d21653c091435a3c2a8fac5ab5020, 0xaa5e1e28625c4348941c27d3bc850926,
   0x64060e0abfe42530a9f99b06e0b16a8f, 0x26153147e1b1724d9e27142f999f3389,
   0x6bc2b755008dc225304f8e702b46aacf, 0x29d188185ed89558079101595268f3c9,
   0xe789983a8360f3203a74bd8c0e5c9060, 0xa59aa777dd35a45d0daa32a57772c966],
  [0x0, 0x4d11c8b3a1f02e200fedbefb7a7817f2,
   0x24b85c6dcb640c5883cae5adbdb5de72, 0x69a994de6a9422788c275b56c7cdc980,
   0xe5c4e39fd4af4a656bfbf646ac9e68fc, 0xa8d52b2c755f6445641648bdd6e67f0e,
   0xc17cbff21fcb463de83113eb112bb68e, 0x8c6d7741be3b681de7dcad106b53a17c,
   0xb929c073503bdb5047986aeda80e1bd4, 0xf43808c0f1cbf5704875d416d2760c26,
   0x9d919c1e9b5fd708c4528f4015bbc5a6, 0xd08054ad3aaff928cbbf31bb6fc3d254,
   0x5ced23ec849491352c639cab04907328, 0x11fceb5f2564bf15238e22507ee864da,
   0x78557f814ff09d6dafa97906b925ad5a, 0x3544b732ee00b34da044c7fdc35dbaa8],
  [0x0, 0x7fb97ed09e8620fe6e10bc11a4756f09,
   0xf2a20f2efc49c5ae10de18e0ebfddfed, 0x8d1b71fe62cfe5507ecea4f14f88b0e4,
   0xd159ed1fc1b3ed36afbc6a5588f530d8, 0xaee093cf5f35cdc8c1acd6442c805fd1,
   0x23fbe2313dfa2898bf6272b56308ef35, 0x5c429ce1a37c0866d172cea4c77d803c,
   0x55275de29762661a5f1f2836d04c4ad6, 0x2a9e233209e446e4310f9427743925df,
   0xa78552cc6b2ba3b44fc130d63bb1953b, 0xd83c2c1cf5ad834a21d18cc79fc4fa32,
   0x847eb0fd56d18b2cf0a3426358b97a0e, 0xfbc7ce2dc857abd29eb3fe72fccc1507,
   0x76dcbfd3aa984e82e07d5a83b344a5e3, 0x965c103341e6e7c8e6de6921731caea],
  [0x0, 0xeb17122c9d1e3c545312b0c9eb84be74,
   0x423ff8412785ad981083aa92168418a0, 0xa928ea6dba9b91cc43911a5bfd00a6d4,
   0xc5d175cd426619b8f3d2859409c87971, 0x2ec667e1df7825eca0c0355de24cc705,
   0x87ee8d8c65e3b420e3512f061f4c61d1, 0x6cf99fa0f8fd8874b0439fcff4c8dfa5,
   0xd3324d4147b45616735a7bdfb2954b4a, 0x38255f6ddaaa6a422048cb165911f53e,
   0x910db5006031fb8e63d9d14da41153ea, 0x7a1aa72cfd2fc7da30cb61844f95ed9e,
   0x16e3388c05d24fae8088fe4bbb5d323b, 0xfdf42aa098cc73fad39a4e8250d98c4f,
   0x54dcc0cd2257e236900b54d9add92a9b, 0xbfcbd2e1bf49de62c319e410465d94ef],
  [0x0, 0xe3a4fb812a3fd4f0247356d54989bbee,
   0x707a847bc1ea7398248ac36b37623438, 0x93de7ffaebd5a76800f995be7eeb8fd6,
   0x7fdb6fd7296f36a2ef535ef1c7a4b5a3, 0x9c7f94560350e252cb2008248e2d0e4d,
   0xfa1ebace885453acbd99d9af0c6819b, 0xec05102dc2ba91caefaacb4fb94f3a75,
   0x92de0b354ab0ee192927dbc3b644d131, 0x717af0b4608f3ae90d548d16ffcd6adf,
   0xe2a48f4e8b5a9d810dad18a88126e509, 0x10074cfa165497129de4e7dc8af5ee7,
   0xed0564e263dfd8bbc674853271e06492, 0xea19f6349e00c4be207d3e73869df7c,
   0x9d7fe099a235ab23e2fe4659468250aa, 0x7edb1b18880a7fd3c68d108c0f0beb44],
  [0x0, 0xf24c8fa5411ca53e1e1733c468bd23a4,
   0xf727e3b59d59a1889ff3824019739ac8, 0x56b6c10dc4504b681e4b18471ceb96c,
   0xf39a089c99dad3797afd986582e2920f, 0x1d68739d8c6764764eaaba1ea5fb1ab,
   0x4bdeb29048372f1e50e1a259b9108c7, 0xf6f1648c459fd7cffb1929e1f32c2b63,
   0xc50af0a3c87182b935b2a455ec786a87, 0x37467f06896d27872ba5979184c54923,
   0x322d131655282331aa412615f50bf04f, 0xc0619cb31434860fb45615d19db6d3eb,
   0x3690f83f51ab51c04f4f3c306e9af888, 0xc4dc779a10b7f4fe51580ff40627db2c,
   0xc1b71b8accf2f048d0bcbe7077e96240, 0x33fb942f8dee5576ceab8db41f5441e4],
  [0x0, 0x5a569f32d5fd825b9f716e7a2f63da16,
   0x25ec3e2ae51b687c71cf417f6b6b881b, 0x7fbaa11830e6ea27eebe2f054408520d,
   0x76afbb98500aa4c92600ce1e7a4505da, 0x2cf924aa85f72692b971a0645526dfcc,
   0x534385b2b511ccb557cf8f61112e8dc1, 0x9151a8060ec4eeec8bee11b3e4d57d7,
   0x84e58d7cab0b48379c32bd04b32c659, 0x5218c7e51f4d36d8e6b245aa64511c4f,
   0x2da266fd2fabdcff080c6aaf20594e42, 0x77f4f9cffa565ea4977d04d50f3a9454,
   0x7ee1e34f9aba104a5fc3e5ce3177c383, 0x24b77c7d4f479211c0b28bb41e141995,
   0x5b0ddd657fa178362e0ca4b15a1c4b98, 0x15b4257aa5cfa6db17dcacb757f918e]]

/-- `POLYVAL_NIBBLE_POW_2_N_TABLE[5]`, `packed_polyval_128.rs:195-3664`. -/
def nibblePow5 : List (List Nat) := [
  [0x0, 0xc2000000000000000000000000000001,
   0x56d1557edb7b6911803ef94fe7dc7cf1, 0x94d1557edb7b6911803ef94fe7dc7cf0,
   0xf39057a0d30a4b1e50f7924baec7cb6a, 0x319057a0d30a4b1e50f7924baec7cb6b,
   0xa54102de0871220fd0c96b04491bb79b, 0x674102de0871220fd0c96b04491bb79a,
   0x8129fdec54552c499c7f4b24cf243238, 0x4329fdec54552c499c7f4b24cf243239,
   0xd7f8a8928f2e45581c41b26b28f84ec9, 0x15f8a8928f2e45581c41b26b28f84ec8,
   0x72b9aa4c875f6757cc88d96f61e3f952, 0xb0b9aa4c875f6757cc88d96f61e3f953,
   0x2468ff325c240e464cb62020863f85a3, 0xe668ff325c240e464cb62020863f85a2],
  [0x0, 0xa7f72b708a5050566ce6c4fe9693500b,
   0x33e0a1c995c543eb671efe5a68715b1, 0xa4c9216c130c0468da972b1b301445ba,
   0xd02fbec1230719445dda7c05229d1efb, 0x77d895b1a9574912313cb8fbb40e4ef0,
   0xd311b4ddba5b4d7aebab93e0841a0b4a, 0x74e69fad300b1d2c874d571e12895b41,
   0xbc72835e7a61ce4d7caa384be97377b3, 0x1b85a82ef0319e1b104cfcb57fe027b8,
   0xbf4c8942e33d9a73cadbd7ae4ff46202, 0x18bba232696dca25a63d1350d9673209,
   0x6c5d3d9f5966d7092170444ecbee6948, 0xcbaa16efd336875f4d9680b05d7d3943,
   0x6f633783c03a83379701abab6d697cf9, 0xc8941cf34a6ad361fbe76f55fbfa2cf2],
  [0x0, 0x22459ea640f95f01991d4844c6e21162,
   0xd06fc922be11d99b32a6ef8cb3f38fa2, 0xf22a5784fee8869aabbba7c875119ec0,
   0xe45037bfa98600e5d4d249cafacf911f, 0xc615a919e97f5fe44dcf018e3c2d807d,
   0x343ffe9d1797d97ee674a646493c1ebd, 0x167a603b576e867f7f69ee028fde0fdf,
   0xfd57ebd86607bce9add92af9303871b2, 0xdf12757e26fee3e834c462bdf6da60d0,
   0x2d3822fad81665729f7fc57583cbfe10, 0xf7dbc5c98ef3a7306628d314529ef72,
   0x1907dc67cf81bc0c790b6333caf7e0ad, 0x3b4242c18f78e30de0162b770c15f1cf,
   0xc9681545719065974bad8cbf79046f0f, 0xeb2d8be331693a96d2b0c4fbbfe67e6d],
  [0x0, 0x319b0b40d7d2f01ce10a793a62e8d20c,
   0x6f5c7f5abda54cac44bcb7d97043009a, 0x5ec7741a6a77bcb0a5b6cee312abd296,
   0xc3c2c2fbcebf8d02349d4ced80a48c1d, 0xf259c9bb196d7d1ed59735d7e24c5e11,
   0xac9ebda1731ac1ae7021fb34f0e78c87, 0x9d05b6e1a4c831b2912b820e920f5e8b,
   0xe1b7670b968d347551bd0dd9eb1e8d43, 0xd02c6c4b415fc469b0b774e389f65f4f,
   0x8eeb18512b2878d91501ba009b5d8dd9, 0xbf701311fcfa88c5f40bc33af9b55fd5,
   0x2275a5f05832b977652041346bba015e, 0x13eeaeb08fe0496b842a380e0952d352,
   0x4d29daaae597f5db219cf6ed1bf901c4, 0x7cb2d1ea324505c7c0968fd77911d3c8],
  [0x0, 0x7b2753be3f04d8285cbb16ee1896d92e,
   0x4f9375aa387e22b1b7a6996b79e0476a, 0x34b42614077afa99eb1d8f8561769e44,
   0x59dd6bc613831ee89318a16debab5cca, 0x22fa38782c87c6c0cfa3b783f33d85e4,
   0x164e1e6c2bfd3c5924be3806924b1ba0, 0x6d694dd214f9e47178052ee88addc28e,
   0x4cc7fbec3aeb4f317b85038f71c6e0a4, 0x37e0a85205ef9719273e15616950398a,
   0x3548e4602956d80cc239ae40826a7ce, 0x7873ddf83d91b5a890988c0a10b07ee0,
   0x151a902a296851d9e89da2e29a6dbc6e, 0x6e3dc394166c89f1b426b40c82fb6540,
   0x5a89e580111673685f3b3b89e38dfb04, 0x21aeb63e2e12ab4003802d67fb1b222a],
  [0x0, 0x7c3a5c6511446b82a65ca4de1b4397b9,
   0x58831b69fcadbf35aaf08cc84bb839b, 0x79b26dd38e8eb071fcf3ac129ff81422,
   0x2ca41e06113ab35b50de06afdfbbe00c, 0x509e4263007ed8d9f682a271c4f877b5,
   0x292c2fb08ef068a80a710e635b006397, 0x551673d59fb4032aac2daabd4043f42e,
   0x5d52d9760d949655f458cfc7e66ae213, 0x216885131cd0fdd752046b19fd2975aa,
   0x58dae8c0925e4da6aef7c70b62d16188, 0x24e0b4a5831a262408ab63d57992f631,
   0x71f6c7701cae250ea486c96839d1021f, 0xdcc9b150dea4e8c02da6db6229295a6,
   0x747ef6c68364fefdfe29c1a4bd6a8184, 0x844aaa39220957f5875657aa629163d],
  [0x0, 0xb7e8833292de54bdc23a32dcb865093c,
   0x3c2d6e8e9f3dd1c8a3653d24fb807b98, 0x8bc5edbc0de38575615f0ff843e572a4,
   0xe7794776c30596571dbb5837da503565, 0x5091c44451dbc2eadf816aeb62353c59,
   0xdb5429f85c38479fbede651321d04efd, 0x6cbcaacacee613227ce457cf99b547c1,
   0x41ddde81ebc58042ddaeeeb58e1c584c, 0xf6355db3791bd4ff1f94dc6936795170,
   0x7df0b00f74f8518a7ecbd391759c23d4, 0xca18333de6260537bcf1e14dcdf92ae8,
   0xa6a499f728c01615c015b682544c6d29, 0x114c1ac5ba1e42a8022f845eec296415,
   0x9a89f779b7fdc7dd63708ba6afcc16b1, 0x2d61744b25239360a14ab97a17a91f8d],
  [0x0, 0x1d97012b2e489e8042d432c110bda1ab,
   0xd65be47b7138492df9f839818247a1ae, 0xcbcce5505f70d7adbb2c0b4092fa0005,
   0xd5f6f13276780f5668ca0bf8ddfd6b37, 0xc861f019583091d62a1e3939cd40ca9c,
   0x3ad15490740467b913232795fbaca99, 0x1e3a14622908d8fbd3e600b84f076b32,
   0x791cedb4079700b5cc458ac6195b6c66, 0x648bec9f29df9e358e91b80709e6cdcd,
   0xaf4709cf76af499835bdb3479b1ccdc8, 0xb2d008e458e7d718776981868ba16c63,
   0xacea1c8671ef0fe3a48f813ec4a60751, 0xb17d1dad5fa79163e65bb3ffd41ba6fa,
   0x7ab1f8fd00d746ce5d77b8bf46e1a6ff, 0x6726f9d62e9fd84e1fa38a7e565c0754],
  [0x0, 0xdf9bd2295adc0697ace7f14914534123,
   0x8a95a43679ccdfb7cabde53249afc21, 0xd732886a3d40cb6cd04c2f1a30c9bd02,
   0x8915dc964c221d1a55db3cfc183eb45e, 0x568e0ebf16fe1b8df93ccdb50c6df57d,
   0x81bc86d52bbed0e12970e2af3ca4487f, 0x5e2754fc7162d676859713e628f7095c,
   0x454ce6a2e8894f2e30ffd4e5a73c48c0, 0x9ad7348bb25549b99c1825acb36f09e3,
   0x4de5bce18f1582d54c540ab683a6b4e1, 0x927e6ec8d5c98442e0b3fbff97f5f5c2,
   0xcc593a34a4ab52346524e819bf02fc9e, 0x13c2e81dfe7754a3c9c31950ab51bdbd,
   0xc4f06077c3379fcf198f364a9b9800bf, 0x1b6bb25e99eb9958b568c7038fcb419c],
  [0x0, 0x8f159ae3e3cc895108db7dfb56da9897,
   0x87d3d2742f41324e58949a1a523a71b3, 0x8c64897cc8dbb1f504fe7e104e0e924,
   0x328c6a88b743eeba75affafe53fd7295, 0xbd99f06b548f67eb7d7487050527ea02,
   0xb55fb8fc9802dcf42d3b60e401c70326, 0x3a4a221f7bce55a525e01d1f571d9bb1,
   0x5d3fc2b8852f2983e209c68c3e59571d, 0xd22a585b66e3a0d2ead2bb776883cf8a,
   0xdaec10ccaa6e1bcdba9d5c966c6326ae, 0x55f98a2f49a2929cb246216d3ab9be39,
   0x6fb3a830326cc73997a63c726da42588, 0xe0a632d3d1a04e689f7d41893b7ebd1f,
   0xe8607a441d2df577cf32a6683f9e543b, 0x6775e0a7fee17c26c7e9db936944ccac],
  [0x0, 0x11c730cac6c45918a8b54636af1ddc3f,
   0x93532f52ce18fc43509a78b75506dab7, 0x82941f9808dca55bf82f3e81fa1b0688,
   0x6090bfa26f71a9d891c906786bc3ee31, 0x71578f68a9b5f0c0397c404ec4de320e,
   0xf3c390f0a169559bc1537ecf3ec53486, 0xe204a03a67ad0c8369e638f991d8e8b9,
   0xf11f6d09ef25a42d65b24b4c3c93ef0d, 0xe0d85dc329e1fd35cd070d7a938e3332,
   0x624c425b213d586e352833fb699535ba, 0x738b7291e7f901769d9d75cdc688e985,
   0x918fd2ab80540df5f47b4d345750013c, 0x8048e261469054ed5cce0b02f84ddd03,
   0x2dcfdf94e4cf1b6a4e135830256db8b, 0x131bcd338888a8ae0c5473b5ad4b07b4],
  [0x0, 0xc0f22919a94f5ff60609197864ad1129,
   0x553583bf7cd87250def51f8eefe221e1, 0x95c7aaa6d5972da6d8fc06f68b4f30c8,
   0xe7332c96bd8b13ae81e2724fa2bb18d5, 0x27c1058f14c44c5887eb6b37c61609fc,
   0xb206af29c15361fe5f176dc14d593934, 0x72f48630681c3e08591e74b929f4281d,
   0x6bd137e89ca0fa01dc3be494b5d956d5, 0xab231ef135efa5f7da32fdecd17447fc,
   0x3ee4b457e078885102cefb1a5a3b7734, 0xfe169d4e4937d7a704c7e2623e96661d,
   0x8ce21b7e212be9af5dd996db17624e00, 0x4c1032678864b6595bd08fa373cf5f29,
   0xd9d798c15df39bff832c8955f8806fe1, 0x1925b1d8f4bcc4098525902d9c2d7ec8],
  [0x0, 0xf0f25afdcec8600a973eca61f36101f7,
   0x2003efb6ab6c38f0fcd4a6a1a4e371b5, 0xd0f1b54b65a458fa6bea6cc057827042,
   0x93ded564f0f325400b493fd14b9d6b72, 0x632c8f993e3b454a9c77f5b0b8fc6a85,
   0xb3dd3ad25b9f1db0f79d9970ef7e1ac7, 0x432f602f95577dba60a353111c1f1b30,
   0xae038a5f41d57084d6ecb64e73ead3f6, 0x5ef1d0a28f1d108e41d27c2f808bd201,
   0x8e0065e9eab948742a3810efd709a243, 0x7ef23f142471287ebd06da8e2468a3b4,
   0x3ddd5f3bb12655c4dda5899f3877b884, 0xcd2f05c67fee35ce4a9b43fecb16b973,
   0x1ddeb08d1a4a6d3421712f3e9c94c931, 0xed2cea70d4820d3eb64fe55f6ff5c8c6],
  [0x0, 0xfffe017d478793c4d71095f347c3e820,
   0x46065812078d25ed6ec99403d5f2e66, 0xfb9e64fc67ff419a01fc0cb37a9cc646,
   0xa44e44b292979e56c6aef9bffd928c48, 0x5bb045cfd5100d9211be6c4cba516468,
   0xa02e2133b2ef4c08104260ffc0cda22e, 0x5fd0204ef568dfccc752f50c870e4a0e,
   0x29608d1841d5be8b3117e5116ce210cc, 0xd69e8c6506522d4fe60770e22b21f8ec,
   0x2d00e89961ad6cd5e7fb7c5151bd3eaa, 0xd2fee9e4262aff1130ebe9a2167ed68a,
   0x8d2ec9aad34220ddf7b91cae91709c84, 0x72d0c8d794c5b31920a9895dd6b374a4,
   0x894eac2bf33af283215585eeac2fb2e2, 0x76b0ad56b4bd6147f645101debec5ac2],
  [0x0, 0x6062246b26cc60e4c796666754ddf5fe,
   0x4e2e4d482879bcf6a35ecf441db5ecfe, 0x2e4c69230eb5dc1264c8a92349681900,
   0xec5f395fd2ab27c4a786117a8dc8b1b2, 0x8c3d1d34f46747206010771dd915444c,
   0xa2717417fad29b3204d8de3e907d5d4c, 0xc213507cdc1efbd6c34eb859c4a0a8b2,
   0x60af33b217d39f2c6b478923f7580170, 0xcd17d9311fffc8acd1ef44a385f48e,
   0x2e817efa3faa23dac8194667eaeded8e, 0x4ee35a911966433e0f8f2000be301870,
   0x8cf00aedc578b8e8ccc198597a90b0c2, 0xec922e86e3b4d80c0b57fe3e2e4d453c,
   0xc2de47a5ed01041e6f9f571d67255c3c, 0xa2bc63cecbcd64faa809317a33f8a9c2],
  [0x0, 0xee1db9c3dd77251ef81b1d47790b5dc4,
   0xfbfd08d4074461d30c657d2280be772e, 0x15e0b117da3344cdf47e6065f9b52aea,
   0x4fddbd6dc6a6a1ab29a61e815144fe22, 0xa1c004ae1bd184b5d1bd03c6284fa3e6,
   0xb420b5b9c1e2c07825c363a3d1fa890c, 0x5a3d0c7a1c95e566ddd87ee4a8f1d4c8,
   0x2125286e99a9bd09361006cc8a61ff18, 0xcf3891ad44de9817ce0b1b8bf36aa2dc,
   0xdad820ba9eeddcda3a757bee0adf8836, 0x34c59979439af9c4c26e66a973d4d5f2,
   0x6ef895035f0f1ca21fb6184ddb25013a, 0x80e52cc0827839bce7ad050aa22e5cfe,
   0x95059dd7584b7d7113d3656f5b9b7614, 0x7b182414853c586febc8782822902bd0],
  [0x0, 0xbaa58af7d16fda10529a6cb4d635841b,
   0xe8766dbf5af4c200d2caf581133940c9, 0x52d3e7488b9b181080509935c50cc4d2,
   0x88c293bf364da5e1d9011065b257f24c, 0x32671948e7227ff18b9b7cd164627657,
   0x60b4fe006cb967e10bcbe5e4a16eb285, 0xda1174f7bdd6bdf159518950775b369e,
   0xbe0ebe90b868587e575ed1af83a6540d, 0x4ab34676907826e05c4bd1b5593d016,
   0x5678d32fe29c9a7e8594242e909f14c4, 0xecdd59d833f3406ed70e489a46aa90df,
   0x36cc2d2f8e25fd9f8e5fc1ca31f1a641, 0x8c69a7d85f4a278fdcc5ad7ee7c4225a,
   0xdeba4090d4d13f9f5c95344b22c8e688, 0x641fca6705bee58f0e0f58fff4fd6293],
  [0x0, 0x8aee8e051df68b12b1e282a5df073ccd,
   0xc75aa71cc1df5ba87af598c8d57caf05, 0x4db42919dc29d0bacb171a6d0a7b93c8,
   0x16db7a50536a0fb1c1d2ace7ac05e8f4, 0x9c35f4554e9c84a370302e427302d439,
   0xd181dd4c92b55419bb27342f797947f1, 0x5b6f53498f43df0b0ac5b68aa67e7b3c,
   0x5ff7fc0de8cab67bab7ad4ea432187ae, 0xd5197208f53c3d691a98564f9c26bb63,
   0x98ad5b112915edd3d18f4c22965d28ab, 0x1243d51434e366c1606dce87495a1466,
   0x492c865dbba0b9ca6aa8780def246f5a, 0xc3c20858a65632d8db4afaa830235397,
   0x8e7621417a7fe262105de0c53a58c05f, 0x498af4467896970a1bf6260e55ffc92],
  [0x0, 0xe471ec0511c35c1903fc1545b973e059,
   0x8957de6f2cd6fee9eda533dda120c66c, 0x6d26326a3d15a2f0ee59269818532635,
   0xc193a05b00319ca591b01ebc97efa418, 0x25e24c5e11f2c0bc924c0bf92e9c4441,
   0x48c47e342ce7624c7c152d6136cf6274, 0xacb592313d243e557fe938248fbc822d,
   0xe4ec837cb2a770e2bb381418b33f5afc, 0x9d6f79a3642cfbb8c4015d0a4cbaa5,
   0x6dbb5d139e718e0b569d27c5121f9c90, 0x89cab1168fb2d21255613280ab6c7cc9,
   0x257f2327b296ec472a880aa424d0fee4, 0xc10ecf22a355b05e29741fe19da31ebd,
   0xac28fd489e4012aec72d397985f03888, 0x4859114d8f834eb7c4d12c3c3c83d8d1],
  [0x0, 0xb5b7d5b21459a241f0f1b0022cb93c1b,
   0x9930c9ce41cb84c917a70c243aa6e953, 0x2c871c7c55922688e756bc26161fd548,
   0x31ba0d247ebf1dace6b0b1c65bb9abaa, 0x840dd8966ae6bfed164101c4770097b1,
   0xa88ac4ea3f749965f117bde2611f42f9, 0x1d3d11582b2d3b2401e60de04da67ee2,
   0x294dc8de8a81d4d6b714d3bac49d518d, 0x9cfa1d6c9ed8769747e563b8e8246d96,
   0xb07d0110cb4a501fa0b3df9efe3bb8de, 0x5cad4a2df13f25e50426f9cd28284c5,
   0x18f7c5faf43ec97a51a4627c9f24fa27, 0xad401048e0676b3ba155d27eb39dc63c,
   0x81c70c34b5f54db346036e58a5821374, 0x3470d986a1aceff2b6f2de5a893b2f6f],
  [0x0, 0x33ada642fb3b7e950ff63bbf1e4fa7e0,
   0xd12d751abe198c5feecc596b4177b03c, 0xe280d3584522f2cae13a62d45f3817dc,
   0xf8b3603096cfe754a7abe35b1045ee55, 0xcb1ec6726df499c1a85dd8e40e0a49b5,
   0x299e152a28d66b0b4967ba3051325e69, 0x1a33b368d3ed159e4691818f4f7df989,
   0x49bd2bb6d5023af6f3aff15e2ed4f3f0, 0x7a108df42e394463fc59cae1309b5410,
   0x98905eac6b1bb6a91d63a8356fa343cc, 0xab3df8ee9020c83c1295938a71ece42c,
   0xb10e4b8643cddda2540412053e911da5, 0x82a3edc4b8f6a3375bf229ba20deba45,
   0x60233e9cfdd451fdbac84b6e7fe6ad99, 0x538e98de06ef2f68b53e70d161a90a79],
  [0x0, 0xf747efd1074e769e8f0b33a7e582ff8b,
   0x17ce7640133eac75ba277a20235d42f9, 0xe08999911470daeb352c4987c6dfbd72,
   0x57095180007560df2f3d555e5d26e3c, 0xf2377ac9074920937df8e6f2005091b7,
   0x12bee3581339fa7848d4af75c68f2cc5, 0xe5f90c8914778ce6c7df9cd2230dd34e,
   0x387425f450c8679dac580ddf92366bda, 0xcf33ca255786110323533e7877b49451,
   0x2fba53b443f6cbe8167f77ffb16b2923, 0xd8fdbc6544b8bd769974445854e9d6a8,
   0x3d04b0ec50cf31905eabd88a77e405e6, 0xca435f3d5781470ed1a0eb2d9266fa6d,
   0x2acac6ac43f19de5e48ca2aa54b9471f, 0xdd8d297d44bfeb7b6b87910db13bb894],
  [0x0, 0x231f7d7547f259dbdf7547b07296906d,
   0xce4a013020a1c49f972ce922bc590ca, 0x2ffbdd6645f8459226078922595300a7,
   0xee1cc766a3ad5fbed69250ef1a0db8a9, 0xcd03ba13e45f066509e7175f689b28c4,
   0xe2f86775a1a743f72fe09e7d31c82863, 0xc1e71a00e6551a2cf095d9cd435eb80e,
   0xef580defafa0391ae9f2447ab45caa03, 0xcc47709ae85260c1368703cac6ca3a6e,
   0xe3bcadfcadaa255310808ae89f993ac9, 0xc0a3d089ea587c88cff5cd58ed0faaa4,
   0x144ca890c0d66a43f601495ae5112aa, 0x225bb7fc4bff3f7fe0155325dcc782c7,
   0xda06a9a0e077aedc612da0785948260, 0x2ebf17ef49f5233619679db7f702120d],
  [0x0, 0x8ed0acaa16bd555e58de3e794ab7a92b,
   0xb66d3fc2b1641cc8f447f3abb4a8f979, 0x38bd9368a7d94996ac99cdd2fe1f5052,
   0xd30ff7bd24a1051e1707cb130abd457e, 0x5ddf5b17321c50404fd9f56a400aec55,
   0x6562c87f95c519d6e34038b8be15bc07, 0xebb264d583784c88bb9e06c1f4a2152c,
   0xf2064d9b0bff8ac239888084906699dc, 0x7cd6e1311d42df9c6156befddad130f7,
   0x446b7259ba9b960acdcf732f24ce60a5, 0xcabbdef3ac26c35495114d566e79c98e,
   0x2109ba262f5e8fdc2e8f4b979adbdca2, 0xafd9168c39e3da82765175eed06c7589,
   0x976485e49e3a9314dac8b83c2e7325db, 0x19b4294e8887c64a8216864564c48cf0],
  [0x0, 0x800cb9a5d593c678f8388169d601a834,
   0xfc41b0a7d51811ecbc6aae5d170d745d, 0x7c4d0902008bd79444522f34c10cdc69,
   0xc442cd7b03c61a9df1d15ffed5abe157, 0x444e74ded655dce509e9de9703aa4963,
   0x38037ddcd6de0b714dbbf1a3c2a6950a, 0xb80fc479034dcd09b58370ca14a73d3e,
   0x3a552a756e4710b681032d27f65a8d0c, 0xba5993d0bbd4d6ce793bac4e205b2538,
   0xc6149ad2bb5f015a3d69837ae157f951, 0x461823776eccc722c551021337565165,
   0xfe17e70e6d810a2b70d272d923f16c5b, 0x7e1b5eabb812cc5388eaf3b0f5f0c46f,
   0x25657a9b8991bc7ccb8dc8434fc1806, 0x825aee0c6d0addbf34805dede2fdb032],
  [0x0, 0x4f63070515b113738b566e2a7d4f40ed,
   0xf9b950894c6e4bb6926c575899673996, 0xb6da578c59df58c5193a3972e428797b,
   0x1f7d43c19615251ea2edf0cef064e061, 0x501e44c483a4366d29bb9ee48d2ba08c,
   0xe6c41348da7b6ea83081a7966903d9f7, 0xa9a7144dcfca7ddbbbd7c9bc144c991a,
   0x87adc80df8e6120c222a77951e696038, 0xc8cecf08ed57017fa97c19bf632620d5,
   0x7e149884b48859bab04620cd870e59ae, 0x31779f81a1394ac93b104ee7fa411943,
   0x98d08bcc6ef3371280c7875bee0d8059, 0xd7b38cc97b4224610b91e9719342c0b4,
   0x6169db45229d7ca412abd003776ab9cf, 0x2e0adc40372c6fd799fdbe290a25f922],
  [0x0, 0x382dbe96715e9d3dc62fc6b3e0ddd718,
   0xc05f90e2dc7dc952dab9cc0f11478ec9, 0xf8722e74ad23546f1c960abcf19a59d1,
   0x5b3957c4c5221e2102a76ac83c67a267, 0x6314e952b47c831cc488ac7bdcba757f,
   0x9b66c726195fd773d81ea6c72d202cae, 0xa34b79b068014a4e1e316074cdfdfbb6,
   0xbdc58deab66a874b4902f51b0db8363f, 0x85e8337cc7341a768f2d33a8ed65e127,
   0x7d9a1d086a174e1993bb39141cffb8f6, 0x45b7a39e1b49d3245594ffa7fc226fee,
   0xe6fcda2e7348996a4ba59fd331df9458, 0xded164b8021604578d8a5960d1024340,
   0x26a34accaf355038911c53dc20981a91, 0x1e8ef45ade6bcd055733956fc045cd89],
  [0x0, 0xc9ab4fb7d20b71244103525039b8ad44,
   0x3b8bebe3b5b2a6101a678e27a6e6fdb0, 0xf220a45467b9d7345b64dc779f5e50f4,
   0xdbcad7d8c1e4e283c9459abe4c962c89, 0x1261986f13ef93a78846c8ee752e81cd,
   0xe0413c3b74564493d3221499ea70d139, 0x29ea738ca65d35b7922146c9d3c87c7d,
   0x182a1b8c8af6890fde685bf153e25dab, 0xd181543b58fdf82b9f6b09a16a5af0ef,
   0x23a1f06f3f442f1fc40fd5d6f504a01b, 0xea0abfd8ed4f5e3b850c8786ccbc0d5f,
   0xc3e0cc544b126b8c172dc14f1f747122, 0xa4b83e399191aa8562e931f26ccdc66,
   0xf86b27b7fea0cd9c0d4a4f68b9928c92, 0x31c068002cabbcb84c491d38802a21d6],
  [0x0, 0xafea8f5d37232777f3ea1d5f1c77dc11,
   0x67c022f398e9afc8d3efa0647a5e3f66, 0xc82aadaeafca88bf2005bd3b6629e377,
   0xb08ad3ddd49b667c25ef0116cc949f15, 0x1f605c80e3b8410bd6051c49d0e34304,
   0xd74af12e4c72c9b4f600a172b6caa073, 0x78a07e737b51eec305eabc2daabd7c62,
   0x82fdceebcf519082c18096271ba5fd27, 0x2d1741b6f872b7f5326a8b7807d22136,
   0xe53dec1857b83f4a126f364361fbc241, 0x4ad76345609b183de1852b1c7d8c1e50,
   0x32771d361bcaf6fee46f9731d7316232, 0x9d9d926b2ce9d18917858a6ecb46be23,
   0x55b73fc58323593637803755ad6f5d54, 0xfa5db098b4007e41c46a2a0ab1188145],
  [0x0, 0x2dd28bce2c82c9c8a9e94a95f25ee45d,
   0xffa5e07bd83fcbbfa7c1d67fae4b08ef, 0xd2776bb5f4bd02770e289cea5c15ecb2,
   0xf5e126f9ff4000aa165a697c154dcba, 0x228c99a1b376c9c2088cec02330a38e7,
   0xf0fbf21447cbcbb506a470e86f1fd455, 0xdd2979da6b49027daf4d3a7d9d413008,
   0x3cdbbd35596a26a82da3abc6c3ffa5ba, 0x110936fb75e8ef60844ae15331a141e7,
   0xc37e5d4e8155ed178a627db96db4ad55, 0xeeacd680add724df238b372c9fea4908,
   0x3385af5ac69e26a28cc60d5102ab7900, 0x1e572494ea1cef6a252f47c4f0f59d5d,
   0xcc204f211ea1ed1d2b07db2eace071ef, 0xe1f2c4ef322324d582ee91bb5ebe95b2],
  [0x0, 0x60e80e50eee2e3fa1ca5763539e0fe8,
   0x76163e80e086dd38336ebba5d100352f, 0x7018be65ee68f30792a4ecc6829e3ac7,
   0x8279ee64f8c7341f78956631a6f1bc66, 0x84776e81f6291a20d95f3152f56fb38e,
   0xf46fd0e41841e9274bfbdd9477f18949, 0xf261500116afc718ea318af7246f86a1,
   0x1f6ab30e314dcf27c47cc2d11e471945, 0x196433eb3fa3e11865b695b24dd916ad,
   0x697c8d8ed1cb121ff7127974cf472c6a, 0x6f720d6bdf253c2056d82e179cd92382,
   0x9d135d6ac98afb38bce9a4e0b8b6a523, 0x9b1ddd8fc764d5071d23f383eb28aacb,
   0xeb0563ea290c26008f871f4569b6900c, 0xed0be30f27e2083f2e4d48263a289fe4],
  [0x0, 0x193c64c26cf8ccd08ff79a280e00eb4a,
   0x489f0812f75b3e01b444e3e8eeb7577e, 0x51a36cd09ba3f2d13bb379c0e0b7bc34,
   0xe3d02dd3045b509891b6d768ed516bf3, 0xfaec491168a39c481e414d40e35180b9,
   0xab4f25c1f3006e9925f2348003e63c8d, 0xb27341039ff8a249aa05aea80de6d7c7,
   0x72732e7737dd0ee3bea0564fff897e69, 0x6b4f4ab55b25c2333157cc67f1899523,
   0x3aec2665c08630e20ae4b5a7113e2917, 0x23d042a7ac7efc3285132f8f1f3ec25d,
   0x91a303a433865e7b2f16812712d8159a, 0x889f67665f7e92aba0e11b0f1cd8fed0,
   0xd93c0bb6c4dd607a9b5262cffc6f42e4, 0xc0006f74a825acaa14a5f8e7f26fa9ae]]

/-- `POLYVAL_NIBBLE_POW_2_N_TABLE`, `packed_polyval_128.rs:195-3664`. -/
def nibblePowTable : List (List (List Nat)) :=
  [nibblePow0, nibblePow1, nibblePow2, nibblePow3, nibblePow4, nibblePow5]

end Verif.Field.Polyval
