import Verif.Model.Big
/-
xcore/bip39/words: the three lists of words. Each word is written as the number whose bytes, most significant first,
are the UTF-8 form of the word. Generated from the Go files.
-/
namespace Toku.Words

/-- Numbers 0 to 127 of xcore/bip39/words/english.go:9 -/
def english0 : List Nat :=
  [0x6162616e646f6e, 0x6162696c697479, 0x61626c65, 0x61626f7574, 0x61626f7665, 0x616273656e74, 0x6162736f7262,
    0x6162737472616374, 0x616273757264, 0x6162757365, 0x616363657373, 0x6163636964656e74, 0x6163636f756e74,
    0x616363757365, 0x61636869657665, 0x61636964, 0x61636f7573746963, 0x61637175697265, 0x6163726f7373, 0x616374,
    0x616374696f6e, 0x6163746f72, 0x61637472657373, 0x61637475616c, 0x6164617074, 0x616464, 0x616464696374,
    0x61646472657373, 0x61646a757374, 0x61646d6974, 0x6164756c74, 0x616476616e6365, 0x616476696365,
    0x6165726f626963, 0x616666616972, 0x6166666f7264, 0x616672616964, 0x616761696e, 0x616765, 0x6167656e74,
    0x6167726565, 0x6168656164, 0x61696d, 0x616972, 0x616972706f7274, 0x6169736c65, 0x616c61726d, 0x616c62756d,
    0x616c636f686f6c, 0x616c657274, 0x616c69656e, 0x616c6c, 0x616c6c6579, 0x616c6c6f77, 0x616c6d6f7374,
    0x616c6f6e65, 0x616c706861, 0x616c7265616479, 0x616c736f, 0x616c746572, 0x616c77617973, 0x616d6174657572,
    0x616d617a696e67, 0x616d6f6e67, 0x616d6f756e74, 0x616d75736564, 0x616e616c797374, 0x616e63686f72,
    0x616e6369656e74, 0x616e676572, 0x616e676c65, 0x616e677279, 0x616e696d616c, 0x616e6b6c65, 0x616e6e6f756e6365,
    0x616e6e75616c, 0x616e6f74686572, 0x616e73776572, 0x616e74656e6e61, 0x616e7469717565, 0x616e7869657479,
    0x616e79, 0x6170617274, 0x61706f6c6f6779, 0x617070656172, 0x6170706c65, 0x617070726f7665, 0x617072696c,
    0x61726368, 0x617263746963, 0x61726561, 0x6172656e61, 0x6172677565, 0x61726d, 0x61726d6564, 0x61726d6f72,
    0x61726d79, 0x61726f756e64, 0x617272616e6765, 0x617272657374, 0x617272697665, 0x6172726f77, 0x617274,
    0x6172746566616374, 0x617274697374, 0x617274776f726b, 0x61736b, 0x617370656374, 0x61737361756c74, 0x6173736574,
    0x617373697374, 0x617373756d65, 0x617374686d61, 0x6174686c657465, 0x61746f6d, 0x61747461636b, 0x617474656e64,
    0x6174746974756465, 0x61747472616374, 0x61756374696f6e, 0x6175646974, 0x617567757374, 0x61756e74,
    0x617574686f72, 0x6175746f, 0x617574756d6e, 0x61766572616765, 0x61766f6361646f]

/-- Numbers 128 to 255 of xcore/bip39/words/english.go:9 -/
def english1 : List Nat :=
  [0x61766f6964, 0x6177616b65, 0x6177617265, 0x61776179, 0x617765736f6d65, 0x617766756c, 0x61776b77617264,
    0x61786973, 0x62616279, 0x62616368656c6f72, 0x6261636f6e, 0x6261646765, 0x626167, 0x62616c616e6365,
    0x62616c636f6e79, 0x62616c6c, 0x62616d626f6f, 0x62616e616e61, 0x62616e6e6572, 0x626172, 0x626172656c79,
    0x6261726761696e, 0x62617272656c, 0x62617365, 0x6261736963, 0x6261736b6574, 0x626174746c65, 0x6265616368,
    0x6265616e, 0x626561757479, 0x62656361757365, 0x6265636f6d65, 0x62656566, 0x6265666f7265, 0x626567696e,
    0x626568617665, 0x626568696e64, 0x62656c69657665, 0x62656c6f77, 0x62656c74, 0x62656e6368, 0x62656e65666974,
    0x62657374, 0x626574726179, 0x626574746572, 0x6265747765656e, 0x6265796f6e64, 0x62696379636c65, 0x626964,
    0x62696b65, 0x62696e64, 0x62696f6c6f6779, 0x62697264, 0x6269727468, 0x626974746572, 0x626c61636b, 0x626c616465,
    0x626c616d65, 0x626c616e6b6574, 0x626c617374, 0x626c65616b, 0x626c657373, 0x626c696e64, 0x626c6f6f64,
    0x626c6f73736f6d, 0x626c6f757365, 0x626c7565, 0x626c7572, 0x626c757368, 0x626f617264, 0x626f6174, 0x626f6479,
    0x626f696c, 0x626f6d62, 0x626f6e65, 0x626f6e7573, 0x626f6f6b, 0x626f6f7374, 0x626f72646572, 0x626f72696e67,
    0x626f72726f77, 0x626f7373, 0x626f74746f6d, 0x626f756e6365, 0x626f78, 0x626f79, 0x627261636b6574, 0x627261696e,
    0x6272616e64, 0x6272617373, 0x6272617665, 0x6272656164, 0x627265657a65, 0x627269636b, 0x627269646765,
    0x6272696566, 0x627269676874, 0x6272696e67, 0x627269736b, 0x62726f63636f6c69, 0x62726f6b656e, 0x62726f6e7a65,
    0x62726f6f6d, 0x62726f74686572, 0x62726f776e, 0x6272757368, 0x627562626c65, 0x6275646479, 0x627564676574,
    0x62756666616c6f, 0x6275696c64, 0x62756c62, 0x62756c6b, 0x62756c6c6574, 0x62756e646c65, 0x62756e6b6572,
    0x62757264656e, 0x627572676572, 0x6275727374, 0x627573, 0x627573696e657373, 0x62757379, 0x627574746572,
    0x6275796572, 0x62757a7a, 0x63616262616765, 0x636162696e, 0x6361626c65]

/-- Numbers 256 to 383 of xcore/bip39/words/english.go:9 -/
def english2 : List Nat :=
  [0x636163747573, 0x63616765, 0x63616b65, 0x63616c6c, 0x63616c6d, 0x63616d657261, 0x63616d70, 0x63616e,
    0x63616e616c, 0x63616e63656c, 0x63616e6479, 0x63616e6e6f6e, 0x63616e6f65, 0x63616e766173, 0x63616e796f6e,
    0x63617061626c65, 0x6361706974616c, 0x6361707461696e, 0x636172, 0x636172626f6e, 0x63617264, 0x636172676f,
    0x636172706574, 0x6361727279, 0x63617274, 0x63617365, 0x63617368, 0x636173696e6f, 0x636173746c65,
    0x63617375616c, 0x636174, 0x636174616c6f67, 0x6361746368, 0x63617465676f7279, 0x636174746c65, 0x636175676874,
    0x6361757365, 0x63617574696f6e, 0x63617665, 0x6365696c696e67, 0x63656c657279, 0x63656d656e74, 0x63656e737573,
    0x63656e74757279, 0x63657265616c, 0x6365727461696e, 0x6368616972, 0x6368616c6b, 0x6368616d70696f6e,
    0x6368616e6765, 0x6368616f73, 0x63686170746572, 0x636861726765, 0x6368617365, 0x63686174, 0x6368656170,
    0x636865636b, 0x636865657365, 0x63686566, 0x636865727279, 0x6368657374, 0x636869636b656e, 0x6368696566,
    0x6368696c64, 0x6368696d6e6579, 0x63686f696365, 0x63686f6f7365, 0x6368726f6e6963, 0x636875636b6c65,
    0x6368756e6b, 0x636875726e, 0x6369676172, 0x63696e6e616d6f6e, 0x636972636c65, 0x636974697a656e, 0x63697479,
    0x636976696c, 0x636c61696d, 0x636c6170, 0x636c6172696679, 0x636c6177, 0x636c6179, 0x636c65616e, 0x636c65726b,
    0x636c65766572, 0x636c69636b, 0x636c69656e74, 0x636c696666, 0x636c696d62, 0x636c696e6963, 0x636c6970,
    0x636c6f636b, 0x636c6f67, 0x636c6f7365, 0x636c6f7468, 0x636c6f7564, 0x636c6f776e, 0x636c7562, 0x636c756d70,
    0x636c7573746572, 0x636c75746368, 0x636f616368, 0x636f617374, 0x636f636f6e7574, 0x636f6465, 0x636f66666565,
    0x636f696c, 0x636f696e, 0x636f6c6c656374, 0x636f6c6f72, 0x636f6c756d6e, 0x636f6d62696e65, 0x636f6d65,
    0x636f6d666f7274, 0x636f6d6963, 0x636f6d6d6f6e, 0x636f6d70616e79, 0x636f6e63657274, 0x636f6e64756374,
    0x636f6e6669726d, 0x636f6e6772657373, 0x636f6e6e656374, 0x636f6e7369646572, 0x636f6e74726f6c,
    0x636f6e76696e6365, 0x636f6f6b, 0x636f6f6c, 0x636f70706572]

/-- Numbers 384 to 511 of xcore/bip39/words/english.go:9 -/
def english3 : List Nat :=
  [0x636f7079, 0x636f72616c, 0x636f7265, 0x636f726e, 0x636f7272656374, 0x636f7374, 0x636f74746f6e, 0x636f756368,
    0x636f756e747279, 0x636f75706c65, 0x636f75727365, 0x636f7573696e, 0x636f766572, 0x636f796f7465, 0x637261636b,
    0x637261646c65, 0x6372616674, 0x6372616d, 0x6372616e65, 0x6372617368, 0x637261746572, 0x637261776c,
    0x6372617a79, 0x637265616d, 0x637265646974, 0x637265656b, 0x63726577, 0x637269636b6574, 0x6372696d65,
    0x6372697370, 0x637269746963, 0x63726f70, 0x63726f7373, 0x63726f756368, 0x63726f7764, 0x6372756369616c,
    0x637275656c, 0x637275697365, 0x6372756d626c65, 0x6372756e6368, 0x6372757368, 0x637279, 0x6372797374616c,
    0x63756265, 0x63756c74757265, 0x637570, 0x637570626f617264, 0x637572696f7573, 0x63757272656e74,
    0x6375727461696e, 0x6375727665, 0x63757368696f6e, 0x637573746f6d, 0x63757465, 0x6379636c65, 0x646164,
    0x64616d616765, 0x64616d70, 0x64616e6365, 0x64616e676572, 0x646172696e67, 0x64617368, 0x6461756768746572,
    0x6461776e, 0x646179, 0x6465616c, 0x646562617465, 0x646562726973, 0x646563616465, 0x646563656d626572,
    0x646563696465, 0x6465636c696e65, 0x6465636f72617465, 0x6465637265617365, 0x64656572, 0x646566656e7365,
    0x646566696e65, 0x64656679, 0x646567726565, 0x64656c6179, 0x64656c69766572, 0x64656d616e64, 0x64656d697365,
    0x64656e69616c, 0x64656e74697374, 0x64656e79, 0x646570617274, 0x646570656e64, 0x6465706f736974, 0x6465707468,
    0x646570757479, 0x646572697665, 0x6465736372696265, 0x646573657274, 0x64657369676e, 0x6465736b,
    0x64657370616972, 0x64657374726f79, 0x64657461696c, 0x646574656374, 0x646576656c6f70, 0x646576696365,
    0x6465766f7465, 0x6469616772616d, 0x6469616c, 0x6469616d6f6e64, 0x6469617279, 0x64696365, 0x64696573656c,
    0x64696574, 0x646966666572, 0x6469676974616c, 0x6469676e697479, 0x64696c656d6d61, 0x64696e6e6572,
    0x64696e6f73617572, 0x646972656374, 0x64697274, 0x6469736167726565, 0x646973636f766572, 0x64697365617365,
    0x64697368, 0x6469736d697373, 0x6469736f72646572, 0x646973706c6179, 0x64697374616e6365, 0x646976657274,
    0x646976696465]

/-- Numbers 512 to 639 of xcore/bip39/words/english.go:9 -/
def english4 : List Nat :=
  [0x6469766f726365, 0x64697a7a79, 0x646f63746f72, 0x646f63756d656e74, 0x646f67, 0x646f6c6c, 0x646f6c7068696e,
    0x646f6d61696e, 0x646f6e617465, 0x646f6e6b6579, 0x646f6e6f72, 0x646f6f72, 0x646f7365, 0x646f75626c65,
    0x646f7665, 0x6472616674, 0x647261676f6e, 0x6472616d61, 0x64726173746963, 0x64726177, 0x647265616d,
    0x6472657373, 0x6472696674, 0x6472696c6c, 0x6472696e6b, 0x64726970, 0x6472697665, 0x64726f70, 0x6472756d,
    0x647279, 0x6475636b, 0x64756d62, 0x64756e65, 0x647572696e67, 0x64757374, 0x6475746368, 0x64757479,
    0x6477617266, 0x64796e616d6963, 0x6561676572, 0x6561676c65, 0x6561726c79, 0x6561726e, 0x6561727468,
    0x656173696c79, 0x65617374, 0x65617379, 0x6563686f, 0x65636f6c6f6779, 0x65636f6e6f6d79, 0x65646765, 0x65646974,
    0x65647563617465, 0x6566666f7274, 0x656767, 0x6569676874, 0x656974686572, 0x656c626f77, 0x656c646572,
    0x656c656374726963, 0x656c6567616e74, 0x656c656d656e74, 0x656c657068616e74, 0x656c657661746f72, 0x656c697465,
    0x656c7365, 0x656d6261726b, 0x656d626f6479, 0x656d6272616365, 0x656d65726765, 0x656d6f74696f6e, 0x656d706c6f79,
    0x656d706f776572, 0x656d707479, 0x656e61626c65, 0x656e616374, 0x656e64, 0x656e646c657373, 0x656e646f727365,
    0x656e656d79, 0x656e65726779, 0x656e666f726365, 0x656e67616765, 0x656e67696e65, 0x656e68616e6365, 0x656e6a6f79,
    0x656e6c697374, 0x656e6f756768, 0x656e72696368, 0x656e726f6c6c, 0x656e73757265, 0x656e746572, 0x656e74697265,
    0x656e747279, 0x656e76656c6f7065, 0x657069736f6465, 0x657175616c, 0x6571756970, 0x657261, 0x6572617365,
    0x65726f6465, 0x65726f73696f6e, 0x6572726f72, 0x6572757074, 0x657363617065, 0x6573736179, 0x657373656e6365,
    0x657374617465, 0x657465726e616c, 0x657468696373, 0x65766964656e6365, 0x6576696c, 0x65766f6b65, 0x65766f6c7665,
    0x6578616374, 0x6578616d706c65, 0x657863657373, 0x65786368616e6765, 0x657863697465, 0x6578636c756465,
    0x657863757365, 0x65786563757465, 0x6578657263697365, 0x65786861757374, 0x65786869626974, 0x6578696c65,
    0x6578697374, 0x65786974]

/-- Numbers 640 to 767 of xcore/bip39/words/english.go:9 -/
def english5 : List Nat :=
  [0x65786f746963, 0x657870616e64, 0x657870656374, 0x657870697265, 0x6578706c61696e, 0x6578706f7365,
    0x65787072657373, 0x657874656e64, 0x6578747261, 0x657965, 0x65796562726f77, 0x666162726963, 0x66616365,
    0x666163756c7479, 0x66616465, 0x6661696e74, 0x6661697468, 0x66616c6c, 0x66616c7365, 0x66616d65, 0x66616d696c79,
    0x66616d6f7573, 0x66616e, 0x66616e6379, 0x66616e74617379, 0x6661726d, 0x66617368696f6e, 0x666174, 0x666174616c,
    0x666174686572, 0x66617469677565, 0x6661756c74, 0x6661766f72697465, 0x66656174757265, 0x6665627275617279,
    0x6665646572616c, 0x666565, 0x66656564, 0x6665656c, 0x66656d616c65, 0x66656e6365, 0x666573746976616c,
    0x6665746368, 0x6665766572, 0x666577, 0x6669626572, 0x66696374696f6e, 0x6669656c64, 0x666967757265, 0x66696c65,
    0x66696c6d, 0x66696c746572, 0x66696e616c, 0x66696e64, 0x66696e65, 0x66696e676572, 0x66696e697368, 0x66697265,
    0x6669726d, 0x6669727374, 0x66697363616c, 0x66697368, 0x666974, 0x6669746e657373, 0x666978, 0x666c6167,
    0x666c616d65, 0x666c617368, 0x666c6174, 0x666c61766f72, 0x666c6565, 0x666c69676874, 0x666c6970, 0x666c6f6174,
    0x666c6f636b, 0x666c6f6f72, 0x666c6f776572, 0x666c756964, 0x666c757368, 0x666c79, 0x666f616d, 0x666f637573,
    0x666f67, 0x666f696c, 0x666f6c64, 0x666f6c6c6f77, 0x666f6f64, 0x666f6f74, 0x666f726365, 0x666f72657374,
    0x666f72676574, 0x666f726b, 0x666f7274756e65, 0x666f72756d, 0x666f7277617264, 0x666f7373696c, 0x666f73746572,
    0x666f756e64, 0x666f78, 0x66726167696c65, 0x6672616d65, 0x6672657175656e74, 0x6672657368, 0x667269656e64,
    0x6672696e6765, 0x66726f67, 0x66726f6e74, 0x66726f7374, 0x66726f776e, 0x66726f7a656e, 0x6672756974, 0x6675656c,
    0x66756e, 0x66756e6e79, 0x6675726e616365, 0x66757279, 0x667574757265, 0x676164676574, 0x6761696e,
    0x67616c617879, 0x67616c6c657279, 0x67616d65, 0x676170, 0x676172616765, 0x67617262616765, 0x67617264656e,
    0x6761726c6963, 0x6761726d656e74]

/-- Numbers 768 to 895 of xcore/bip39/words/english.go:9 -/
def english6 : List Nat :=
  [0x676173, 0x67617370, 0x67617465, 0x676174686572, 0x6761756765, 0x67617a65, 0x67656e6572616c, 0x67656e697573,
    0x67656e7265, 0x67656e746c65, 0x67656e75696e65, 0x67657374757265, 0x67686f7374, 0x6769616e74, 0x67696674,
    0x676967676c65, 0x67696e676572, 0x67697261666665, 0x6769726c, 0x67697665, 0x676c6164, 0x676c616e6365,
    0x676c617265, 0x676c617373, 0x676c696465, 0x676c696d707365, 0x676c6f6265, 0x676c6f6f6d, 0x676c6f7279,
    0x676c6f7665, 0x676c6f77, 0x676c7565, 0x676f6174, 0x676f6464657373, 0x676f6c64, 0x676f6f64, 0x676f6f7365,
    0x676f72696c6c61, 0x676f7370656c, 0x676f73736970, 0x676f7665726e, 0x676f776e, 0x67726162, 0x6772616365,
    0x677261696e, 0x6772616e74, 0x6772617065, 0x6772617373, 0x67726176697479, 0x6772656174, 0x677265656e,
    0x67726964, 0x6772696566, 0x67726974, 0x67726f63657279, 0x67726f7570, 0x67726f77, 0x6772756e74, 0x6775617264,
    0x6775657373, 0x6775696465, 0x6775696c74, 0x677569746172, 0x67756e, 0x67796d, 0x6861626974, 0x68616972,
    0x68616c66, 0x68616d6d6572, 0x68616d73746572, 0x68616e64, 0x6861707079, 0x686172626f72, 0x68617264,
    0x6861727368, 0x68617276657374, 0x686174, 0x68617665, 0x6861776b, 0x68617a617264, 0x68656164, 0x6865616c7468,
    0x6865617274, 0x6865617679, 0x6865646765686f67, 0x686569676874, 0x68656c6c6f, 0x68656c6d6574, 0x68656c70,
    0x68656e, 0x6865726f, 0x68696464656e, 0x68696768, 0x68696c6c, 0x68696e74, 0x686970, 0x68697265,
    0x686973746f7279, 0x686f626279, 0x686f636b6579, 0x686f6c64, 0x686f6c65, 0x686f6c69646179, 0x686f6c6c6f77,
    0x686f6d65, 0x686f6e6579, 0x686f6f64, 0x686f7065, 0x686f726e, 0x686f72726f72, 0x686f727365, 0x686f73706974616c,
    0x686f7374, 0x686f74656c, 0x686f7572, 0x686f766572, 0x687562, 0x68756765, 0x68756d616e, 0x68756d626c65,
    0x68756d6f72, 0x68756e64726564, 0x68756e677279, 0x68756e74, 0x687572646c65, 0x6875727279, 0x68757274,
    0x68757362616e64]

/-- Numbers 896 to 1023 of xcore/bip39/words/english.go:9 -/
def english7 : List Nat :=
  [0x687962726964, 0x696365, 0x69636f6e, 0x69646561, 0x6964656e74696679, 0x69646c65, 0x69676e6f7265, 0x696c6c,
    0x696c6c6567616c, 0x696c6c6e657373, 0x696d616765, 0x696d6974617465, 0x696d6d656e7365, 0x696d6d756e65,
    0x696d70616374, 0x696d706f7365, 0x696d70726f7665, 0x696d70756c7365, 0x696e6368, 0x696e636c756465,
    0x696e636f6d65, 0x696e637265617365, 0x696e646578, 0x696e646963617465, 0x696e646f6f72, 0x696e647573747279,
    0x696e66616e74, 0x696e666c696374, 0x696e666f726d, 0x696e68616c65, 0x696e6865726974, 0x696e697469616c,
    0x696e6a656374, 0x696e6a757279, 0x696e6d617465, 0x696e6e6572, 0x696e6e6f63656e74, 0x696e707574,
    0x696e7175697279, 0x696e73616e65, 0x696e73656374, 0x696e73696465, 0x696e7370697265, 0x696e7374616c6c,
    0x696e74616374, 0x696e746572657374, 0x696e746f, 0x696e76657374, 0x696e76697465, 0x696e766f6c7665, 0x69726f6e,
    0x69736c616e64, 0x69736f6c617465, 0x6973737565, 0x6974656d, 0x69766f7279, 0x6a61636b6574, 0x6a6167756172,
    0x6a6172, 0x6a617a7a, 0x6a65616c6f7573, 0x6a65616e73, 0x6a656c6c79, 0x6a6577656c, 0x6a6f62, 0x6a6f696e,
    0x6a6f6b65, 0x6a6f75726e6579, 0x6a6f79, 0x6a75646765, 0x6a75696365, 0x6a756d70, 0x6a756e676c65, 0x6a756e696f72,
    0x6a756e6b, 0x6a757374, 0x6b616e6761726f6f, 0x6b65656e, 0x6b656570, 0x6b657463687570, 0x6b6579, 0x6b69636b,
    0x6b6964, 0x6b69646e6579, 0x6b696e64, 0x6b696e67646f6d, 0x6b697373, 0x6b6974, 0x6b69746368656e, 0x6b697465,
    0x6b697474656e, 0x6b697769, 0x6b6e6565, 0x6b6e696665, 0x6b6e6f636b, 0x6b6e6f77, 0x6c6162, 0x6c6162656c,
    0x6c61626f72, 0x6c6164646572, 0x6c616479, 0x6c616b65, 0x6c616d70, 0x6c616e6775616765, 0x6c6170746f70,
    0x6c61726765, 0x6c61746572, 0x6c6174696e, 0x6c61756768, 0x6c61756e647279, 0x6c617661, 0x6c6177, 0x6c61776e,
    0x6c617773756974, 0x6c61796572, 0x6c617a79, 0x6c6561646572, 0x6c656166, 0x6c6561726e, 0x6c65617665,
    0x6c656374757265, 0x6c656674, 0x6c6567, 0x6c6567616c, 0x6c6567656e64, 0x6c656973757265, 0x6c656d6f6e,
    0x6c656e64]

/-- Numbers 1024 to 1151 of xcore/bip39/words/english.go:9 -/
def english8 : List Nat :=
  [0x6c656e677468, 0x6c656e73, 0x6c656f70617264, 0x6c6573736f6e, 0x6c6574746572, 0x6c6576656c, 0x6c696172,
    0x6c696265727479, 0x6c696272617279, 0x6c6963656e7365, 0x6c696665, 0x6c696674, 0x6c69676874, 0x6c696b65,
    0x6c696d62, 0x6c696d6974, 0x6c696e6b, 0x6c696f6e, 0x6c6971756964, 0x6c697374, 0x6c6974746c65, 0x6c697665,
    0x6c697a617264, 0x6c6f6164, 0x6c6f616e, 0x6c6f6273746572, 0x6c6f63616c, 0x6c6f636b, 0x6c6f676963,
    0x6c6f6e656c79, 0x6c6f6e67, 0x6c6f6f70, 0x6c6f7474657279, 0x6c6f7564, 0x6c6f756e6765, 0x6c6f7665, 0x6c6f79616c,
    0x6c75636b79, 0x6c756767616765, 0x6c756d626572, 0x6c756e6172, 0x6c756e6368, 0x6c7578757279, 0x6c7972696373,
    0x6d616368696e65, 0x6d6164, 0x6d61676963, 0x6d61676e6574, 0x6d616964, 0x6d61696c, 0x6d61696e, 0x6d616a6f72,
    0x6d616b65, 0x6d616d6d616c, 0x6d616e, 0x6d616e616765, 0x6d616e64617465, 0x6d616e676f, 0x6d616e73696f6e,
    0x6d616e75616c, 0x6d61706c65, 0x6d6172626c65, 0x6d61726368, 0x6d617267696e, 0x6d6172696e65, 0x6d61726b6574,
    0x6d61727269616765, 0x6d61736b, 0x6d617373, 0x6d6173746572, 0x6d61746368, 0x6d6174657269616c, 0x6d617468,
    0x6d6174726978, 0x6d6174746572, 0x6d6178696d756d, 0x6d617a65, 0x6d6561646f77, 0x6d65616e, 0x6d656173757265,
    0x6d656174, 0x6d656368616e6963, 0x6d6564616c, 0x6d65646961, 0x6d656c6f6479, 0x6d656c74, 0x6d656d626572,
    0x6d656d6f7279, 0x6d656e74696f6e, 0x6d656e75, 0x6d65726379, 0x6d65726765, 0x6d65726974, 0x6d65727279,
    0x6d657368, 0x6d657373616765, 0x6d6574616c, 0x6d6574686f64, 0x6d6964646c65, 0x6d69646e69676874, 0x6d696c6b,
    0x6d696c6c696f6e, 0x6d696d6963, 0x6d696e64, 0x6d696e696d756d, 0x6d696e6f72, 0x6d696e757465, 0x6d697261636c65,
    0x6d6972726f72, 0x6d6973657279, 0x6d697373, 0x6d697374616b65, 0x6d6978, 0x6d69786564, 0x6d697874757265,
    0x6d6f62696c65, 0x6d6f64656c, 0x6d6f64696679, 0x6d6f6d, 0x6d6f6d656e74, 0x6d6f6e69746f72, 0x6d6f6e6b6579,
    0x6d6f6e73746572, 0x6d6f6e7468, 0x6d6f6f6e, 0x6d6f72616c, 0x6d6f7265, 0x6d6f726e696e67]

/-- Numbers 1152 to 1279 of xcore/bip39/words/english.go:9 -/
def english9 : List Nat :=
  [0x6d6f73717569746f, 0x6d6f74686572, 0x6d6f74696f6e, 0x6d6f746f72, 0x6d6f756e7461696e, 0x6d6f757365, 0x6d6f7665,
    0x6d6f766965, 0x6d756368, 0x6d756666696e, 0x6d756c65, 0x6d756c7469706c79, 0x6d7573636c65, 0x6d757365756d,
    0x6d757368726f6f6d, 0x6d75736963, 0x6d757374, 0x6d757475616c, 0x6d7973656c66, 0x6d797374657279, 0x6d797468,
    0x6e61697665, 0x6e616d65, 0x6e61706b696e, 0x6e6172726f77, 0x6e61737479, 0x6e6174696f6e, 0x6e6174757265,
    0x6e656172, 0x6e65636b, 0x6e656564, 0x6e65676174697665, 0x6e65676c656374, 0x6e656974686572, 0x6e6570686577,
    0x6e65727665, 0x6e657374, 0x6e6574, 0x6e6574776f726b, 0x6e65757472616c, 0x6e65766572, 0x6e657773, 0x6e657874,
    0x6e696365, 0x6e69676874, 0x6e6f626c65, 0x6e6f697365, 0x6e6f6d696e6565, 0x6e6f6f646c65, 0x6e6f726d616c,
    0x6e6f727468, 0x6e6f7365, 0x6e6f7461626c65, 0x6e6f7465, 0x6e6f7468696e67, 0x6e6f74696365, 0x6e6f76656c,
    0x6e6f77, 0x6e75636c656172, 0x6e756d626572, 0x6e75727365, 0x6e7574, 0x6f616b, 0x6f626579, 0x6f626a656374,
    0x6f626c696765, 0x6f627363757265, 0x6f627365727665, 0x6f627461696e, 0x6f6276696f7573, 0x6f63637572,
    0x6f6365616e, 0x6f63746f626572, 0x6f646f72, 0x6f6666, 0x6f66666572, 0x6f6666696365, 0x6f6674656e, 0x6f696c,
    0x6f6b6179, 0x6f6c64, 0x6f6c697665, 0x6f6c796d706963, 0x6f6d6974, 0x6f6e6365, 0x6f6e65, 0x6f6e696f6e,
    0x6f6e6c696e65, 0x6f6e6c79, 0x6f70656e, 0x6f70657261, 0x6f70696e696f6e, 0x6f70706f7365, 0x6f7074696f6e,
    0x6f72616e6765, 0x6f72626974, 0x6f726368617264, 0x6f72646572, 0x6f7264696e617279, 0x6f7267616e, 0x6f7269656e74,
    0x6f726967696e616c, 0x6f727068616e, 0x6f737472696368, 0x6f74686572, 0x6f7574646f6f72, 0x6f75746572,
    0x6f7574707574, 0x6f757473696465, 0x6f76616c, 0x6f76656e, 0x6f766572, 0x6f776e, 0x6f776e6572, 0x6f787967656e,
    0x6f7973746572, 0x6f7a6f6e65, 0x70616374, 0x706164646c65, 0x70616765, 0x70616972, 0x70616c616365, 0x70616c6d,
    0x70616e6461, 0x70616e656c, 0x70616e6963, 0x70616e74686572, 0x7061706572]

/-- Numbers 1280 to 1407 of xcore/bip39/words/english.go:9 -/
def english10 : List Nat :=
  [0x706172616465, 0x706172656e74, 0x7061726b, 0x706172726f74, 0x7061727479, 0x70617373, 0x7061746368, 0x70617468,
    0x70617469656e74, 0x706174726f6c, 0x7061747465726e, 0x7061757365, 0x70617665, 0x7061796d656e74, 0x7065616365,
    0x7065616e7574, 0x70656172, 0x70656173616e74, 0x70656c6963616e, 0x70656e, 0x70656e616c7479, 0x70656e63696c,
    0x70656f706c65, 0x706570706572, 0x70657266656374, 0x7065726d6974, 0x706572736f6e, 0x706574, 0x70686f6e65,
    0x70686f746f, 0x706872617365, 0x706879736963616c, 0x7069616e6f, 0x7069636e6963, 0x70696374757265, 0x7069656365,
    0x706967, 0x706967656f6e, 0x70696c6c, 0x70696c6f74, 0x70696e6b, 0x70696f6e656572, 0x70697065, 0x706973746f6c,
    0x7069746368, 0x70697a7a61, 0x706c616365, 0x706c616e6574, 0x706c6173746963, 0x706c617465, 0x706c6179,
    0x706c65617365, 0x706c65646765, 0x706c75636b, 0x706c7567, 0x706c756e6765, 0x706f656d, 0x706f6574, 0x706f696e74,
    0x706f6c6172, 0x706f6c65, 0x706f6c696365, 0x706f6e64, 0x706f6e79, 0x706f6f6c, 0x706f70756c6172,
    0x706f7274696f6e, 0x706f736974696f6e, 0x706f737369626c65, 0x706f7374, 0x706f7461746f, 0x706f7474657279,
    0x706f7665727479, 0x706f77646572, 0x706f776572, 0x7072616374696365, 0x707261697365, 0x70726564696374,
    0x707265666572, 0x70726570617265, 0x70726573656e74, 0x707265747479, 0x70726576656e74, 0x7072696365,
    0x7072696465, 0x7072696d617279, 0x7072696e74, 0x7072696f72697479, 0x707269736f6e, 0x70726976617465,
    0x7072697a65, 0x70726f626c656d, 0x70726f63657373, 0x70726f64756365, 0x70726f666974, 0x70726f6772616d,
    0x70726f6a656374, 0x70726f6d6f7465, 0x70726f6f66, 0x70726f7065727479, 0x70726f73706572, 0x70726f74656374,
    0x70726f7564, 0x70726f76696465, 0x7075626c6963, 0x70756464696e67, 0x70756c6c, 0x70756c70, 0x70756c7365,
    0x70756d706b696e, 0x70756e6368, 0x707570696c, 0x7075707079, 0x7075726368617365, 0x707572697479,
    0x707572706f7365, 0x7075727365, 0x70757368, 0x707574, 0x70757a7a6c65, 0x707972616d6964, 0x7175616c697479,
    0x7175616e74756d, 0x71756172746572, 0x7175657374696f6e, 0x717569636b, 0x71756974, 0x7175697a]

/-- Numbers 1408 to 1535 of xcore/bip39/words/english.go:9 -/
def english11 : List Nat :=
  [0x71756f7465, 0x726162626974, 0x726163636f6f6e, 0x72616365, 0x7261636b, 0x7261646172, 0x726164696f, 0x7261696c,
    0x7261696e, 0x7261697365, 0x72616c6c79, 0x72616d70, 0x72616e6368, 0x72616e646f6d, 0x72616e6765, 0x7261706964,
    0x72617265, 0x72617465, 0x726174686572, 0x726176656e, 0x726177, 0x72617a6f72, 0x7265616479, 0x7265616c,
    0x726561736f6e, 0x726562656c, 0x72656275696c64, 0x726563616c6c, 0x72656365697665, 0x726563697065,
    0x7265636f7264, 0x72656379636c65, 0x726564756365, 0x7265666c656374, 0x7265666f726d, 0x726566757365,
    0x726567696f6e, 0x726567726574, 0x726567756c6172, 0x72656a656374, 0x72656c6178, 0x72656c65617365,
    0x72656c696566, 0x72656c79, 0x72656d61696e, 0x72656d656d626572, 0x72656d696e64, 0x72656d6f7665, 0x72656e646572,
    0x72656e6577, 0x72656e74, 0x72656f70656e, 0x726570616972, 0x726570656174, 0x7265706c616365, 0x7265706f7274,
    0x72657175697265, 0x726573637565, 0x726573656d626c65, 0x726573697374, 0x7265736f75726365, 0x726573706f6e7365,
    0x726573756c74, 0x726574697265, 0x72657472656174, 0x72657475726e, 0x7265756e696f6e, 0x72657665616c,
    0x726576696577, 0x726577617264, 0x72687974686d, 0x726962, 0x726962626f6e, 0x72696365, 0x72696368, 0x72696465,
    0x7269646765, 0x7269666c65, 0x7269676874, 0x7269676964, 0x72696e67, 0x72696f74, 0x726970706c65, 0x7269736b,
    0x72697475616c, 0x726976616c, 0x7269766572, 0x726f6164, 0x726f617374, 0x726f626f74, 0x726f62757374,
    0x726f636b6574, 0x726f6d616e6365, 0x726f6f66, 0x726f6f6b6965, 0x726f6f6d, 0x726f7365, 0x726f74617465,
    0x726f756768, 0x726f756e64, 0x726f757465, 0x726f79616c, 0x727562626572, 0x72756465, 0x727567, 0x72756c65,
    0x72756e, 0x72756e776179, 0x727572616c, 0x736164, 0x736164646c65, 0x7361646e657373, 0x73616665, 0x7361696c,
    0x73616c6164, 0x73616c6d6f6e, 0x73616c6f6e, 0x73616c74, 0x73616c757465, 0x73616d65, 0x73616d706c65, 0x73616e64,
    0x73617469736679, 0x7361746f736869, 0x7361756365, 0x73617573616765, 0x73617665, 0x736179]

/-- Numbers 1536 to 1663 of xcore/bip39/words/english.go:9 -/
def english12 : List Nat :=
  [0x7363616c65, 0x7363616e, 0x7363617265, 0x73636174746572, 0x7363656e65, 0x736368656d65, 0x7363686f6f6c,
    0x736369656e6365, 0x73636973736f7273, 0x73636f7270696f6e, 0x73636f7574, 0x7363726170, 0x73637265656e,
    0x736372697074, 0x7363727562, 0x736561, 0x736561726368, 0x736561736f6e, 0x73656174, 0x7365636f6e64,
    0x736563726574, 0x73656374696f6e, 0x7365637572697479, 0x73656564, 0x7365656b, 0x7365676d656e74, 0x73656c656374,
    0x73656c6c, 0x73656d696e6172, 0x73656e696f72, 0x73656e7365, 0x73656e74656e6365, 0x736572696573,
    0x73657276696365, 0x73657373696f6e, 0x736574746c65, 0x7365747570, 0x736576656e, 0x736861646f77, 0x7368616674,
    0x7368616c6c6f77, 0x7368617265, 0x73686564, 0x7368656c6c, 0x73686572696666, 0x736869656c64, 0x7368696674,
    0x7368696e65, 0x73686970, 0x736869766572, 0x73686f636b, 0x73686f65, 0x73686f6f74, 0x73686f70, 0x73686f7274,
    0x73686f756c646572, 0x73686f7665, 0x736872696d70, 0x7368727567, 0x73687566666c65, 0x736879, 0x7369626c696e67,
    0x7369636b, 0x73696465, 0x7369656765, 0x7369676874, 0x7369676e, 0x73696c656e74, 0x73696c6b, 0x73696c6c79,
    0x73696c766572, 0x73696d696c6172, 0x73696d706c65, 0x73696e6365, 0x73696e67, 0x736972656e, 0x736973746572,
    0x73697475617465, 0x736978, 0x73697a65, 0x736b617465, 0x736b65746368, 0x736b69, 0x736b696c6c, 0x736b696e,
    0x736b697274, 0x736b756c6c, 0x736c6162, 0x736c616d, 0x736c656570, 0x736c656e646572, 0x736c696365, 0x736c696465,
    0x736c69676874, 0x736c696d, 0x736c6f67616e, 0x736c6f74, 0x736c6f77, 0x736c757368, 0x736d616c6c, 0x736d617274,
    0x736d696c65, 0x736d6f6b65, 0x736d6f6f7468, 0x736e61636b, 0x736e616b65, 0x736e6170, 0x736e696666, 0x736e6f77,
    0x736f6170, 0x736f63636572, 0x736f6369616c, 0x736f636b, 0x736f6461, 0x736f6674, 0x736f6c6172, 0x736f6c64696572,
    0x736f6c6964, 0x736f6c7574696f6e, 0x736f6c7665, 0x736f6d656f6e65, 0x736f6e67, 0x736f6f6e, 0x736f727279,
    0x736f7274, 0x736f756c, 0x736f756e64, 0x736f7570]

/-- Numbers 1664 to 1791 of xcore/bip39/words/english.go:9 -/
def english13 : List Nat :=
  [0x736f75726365, 0x736f757468, 0x7370616365, 0x7370617265, 0x7370617469616c, 0x737061776e, 0x737065616b,
    0x7370656369616c, 0x7370656564, 0x7370656c6c, 0x7370656e64, 0x737068657265, 0x7370696365, 0x737069646572,
    0x7370696b65, 0x7370696e, 0x737069726974, 0x73706c6974, 0x73706f696c, 0x73706f6e736f72, 0x73706f6f6e,
    0x73706f7274, 0x73706f74, 0x7370726179, 0x737072656164, 0x737072696e67, 0x737079, 0x737175617265,
    0x73717565657a65, 0x737175697272656c, 0x737461626c65, 0x7374616469756d, 0x7374616666, 0x7374616765,
    0x737461697273, 0x7374616d70, 0x7374616e64, 0x7374617274, 0x7374617465, 0x73746179, 0x737465616b, 0x737465656c,
    0x7374656d, 0x73746570, 0x73746572656f, 0x737469636b, 0x7374696c6c, 0x7374696e67, 0x73746f636b,
    0x73746f6d616368, 0x73746f6e65, 0x73746f6f6c, 0x73746f7279, 0x73746f7665, 0x7374726174656779, 0x737472656574,
    0x737472696b65, 0x7374726f6e67, 0x7374727567676c65, 0x73747564656e74, 0x7374756666, 0x7374756d626c65,
    0x7374796c65, 0x7375626a656374, 0x7375626d6974, 0x737562776179, 0x73756363657373, 0x73756368, 0x73756464656e,
    0x737566666572, 0x7375676172, 0x73756767657374, 0x73756974, 0x73756d6d6572, 0x73756e, 0x73756e6e79,
    0x73756e736574, 0x7375706572, 0x737570706c79, 0x73757072656d65, 0x73757265, 0x73757266616365, 0x7375726765,
    0x7375727072697365, 0x737572726f756e64, 0x737572766579, 0x73757370656374, 0x7375737461696e, 0x7377616c6c6f77,
    0x7377616d70, 0x73776170, 0x737761726d, 0x7377656172, 0x7377656574, 0x7377696674, 0x7377696d, 0x7377696e67,
    0x737769746368, 0x73776f7264, 0x73796d626f6c, 0x73796d70746f6d, 0x7379727570, 0x73797374656d, 0x7461626c65,
    0x7461636b6c65, 0x746167, 0x7461696c, 0x74616c656e74, 0x74616c6b, 0x74616e6b, 0x74617065, 0x746172676574,
    0x7461736b, 0x7461737465, 0x746174746f6f, 0x74617869, 0x7465616368, 0x7465616d, 0x74656c6c, 0x74656e,
    0x74656e616e74, 0x74656e6e6973, 0x74656e74, 0x7465726d, 0x74657374, 0x74657874, 0x7468616e6b, 0x74686174]

/-- Numbers 1792 to 1919 of xcore/bip39/words/english.go:9 -/
def english14 : List Nat :=
  [0x7468656d65, 0x7468656e, 0x7468656f7279, 0x7468657265, 0x74686579, 0x7468696e67, 0x74686973, 0x74686f75676874,
    0x7468726565, 0x746872697665, 0x7468726f77, 0x7468756d62, 0x7468756e646572, 0x7469636b6574, 0x74696465,
    0x7469676572, 0x74696c74, 0x74696d626572, 0x74696d65, 0x74696e79, 0x746970, 0x7469726564, 0x746973737565,
    0x7469746c65, 0x746f617374, 0x746f626163636f, 0x746f646179, 0x746f64646c6572, 0x746f65, 0x746f676574686572,
    0x746f696c6574, 0x746f6b656e, 0x746f6d61746f, 0x746f6d6f72726f77, 0x746f6e65, 0x746f6e677565, 0x746f6e69676874,
    0x746f6f6c, 0x746f6f7468, 0x746f70, 0x746f706963, 0x746f70706c65, 0x746f726368, 0x746f726e61646f,
    0x746f72746f697365, 0x746f7373, 0x746f74616c, 0x746f7572697374, 0x746f77617264, 0x746f776572, 0x746f776e,
    0x746f79, 0x747261636b, 0x7472616465, 0x74726166666963, 0x747261676963, 0x747261696e, 0x7472616e73666572,
    0x74726170, 0x7472617368, 0x74726176656c, 0x74726179, 0x7472656174, 0x74726565, 0x7472656e64, 0x747269616c,
    0x7472696265, 0x747269636b, 0x74726967676572, 0x7472696d, 0x74726970, 0x74726f706879, 0x74726f75626c65,
    0x747275636b, 0x74727565, 0x7472756c79, 0x7472756d706574, 0x7472757374, 0x7472757468, 0x747279, 0x74756265,
    0x74756974696f6e, 0x74756d626c65, 0x74756e61, 0x74756e6e656c, 0x7475726b6579, 0x7475726e, 0x747572746c65,
    0x7477656c7665, 0x7477656e7479, 0x7477696365, 0x7477696e, 0x7477697374, 0x74776f, 0x74797065, 0x7479706963616c,
    0x75676c79, 0x756d6272656c6c61, 0x756e61626c65, 0x756e6177617265, 0x756e636c65, 0x756e636f766572, 0x756e646572,
    0x756e646f, 0x756e66616972, 0x756e666f6c64, 0x756e6861707079, 0x756e69666f726d, 0x756e69717565, 0x756e6974,
    0x756e697665727365, 0x756e6b6e6f776e, 0x756e6c6f636b, 0x756e74696c, 0x756e757375616c, 0x756e7665696c,
    0x757064617465, 0x75706772616465, 0x7570686f6c64, 0x75706f6e, 0x7570706572, 0x7570736574, 0x757262616e,
    0x75726765, 0x7573616765, 0x757365, 0x75736564, 0x75736566756c]

/-- Numbers 1920 to 2047 of xcore/bip39/words/english.go:9 -/
def english15 : List Nat :=
  [0x7573656c657373, 0x757375616c, 0x7574696c697479, 0x766163616e74, 0x76616375756d, 0x7661677565, 0x76616c6964,
    0x76616c6c6579, 0x76616c7665, 0x76616e, 0x76616e697368, 0x7661706f72, 0x766172696f7573, 0x76617374,
    0x7661756c74, 0x76656869636c65, 0x76656c766574, 0x76656e646f72, 0x76656e74757265, 0x76656e7565, 0x76657262,
    0x766572696679, 0x76657273696f6e, 0x76657279, 0x76657373656c, 0x7665746572616e, 0x766961626c65,
    0x76696272616e74, 0x766963696f7573, 0x766963746f7279, 0x766964656f, 0x76696577, 0x76696c6c616765,
    0x76696e74616765, 0x76696f6c696e, 0x7669727475616c, 0x7669727573, 0x76697361, 0x7669736974, 0x76697375616c,
    0x766974616c, 0x7669766964, 0x766f63616c, 0x766f696365, 0x766f6964, 0x766f6c63616e6f, 0x766f6c756d65,
    0x766f7465, 0x766f79616765, 0x77616765, 0x7761676f6e, 0x77616974, 0x77616c6b, 0x77616c6c, 0x77616c6e7574,
    0x77616e74, 0x77617266617265, 0x7761726d, 0x77617272696f72, 0x77617368, 0x77617370, 0x7761737465, 0x7761746572,
    0x77617665, 0x776179, 0x7765616c7468, 0x776561706f6e, 0x77656172, 0x77656173656c, 0x77656174686572, 0x776562,
    0x77656464696e67, 0x7765656b656e64, 0x7765697264, 0x77656c636f6d65, 0x77657374, 0x776574, 0x7768616c65,
    0x77686174, 0x7768656174, 0x776865656c, 0x7768656e, 0x7768657265, 0x77686970, 0x77686973706572, 0x77696465,
    0x7769647468, 0x77696665, 0x77696c64, 0x77696c6c, 0x77696e, 0x77696e646f77, 0x77696e65, 0x77696e67, 0x77696e6b,
    0x77696e6e6572, 0x77696e746572, 0x77697265, 0x776973646f6d, 0x77697365, 0x77697368, 0x7769746e657373,
    0x776f6c66, 0x776f6d616e, 0x776f6e646572, 0x776f6f64, 0x776f6f6c, 0x776f7264, 0x776f726b, 0x776f726c64,
    0x776f727279, 0x776f727468, 0x77726170, 0x777265636b, 0x77726573746c65, 0x7772697374, 0x7772697465,
    0x77726f6e67, 0x79617264, 0x79656172, 0x79656c6c6f77, 0x796f75, 0x796f756e67, 0x796f757468, 0x7a65627261,
    0x7a65726f, 0x7a6f6e65, 0x7a6f6f]

/-- The numbers of xcore/bip39/words/english.go:9 -/
def englishNumbers : List Nat :=
  english0 ++ english1 ++ english2 ++ english3 ++ english4 ++ english5 ++ english6 ++ english7 ++ english8 ++ english9 ++ english10 ++ english11 ++ english12 ++ english13 ++ english14 ++ english15

/-- xcore/bip39/words/english.go:9 -/
def english : List Bytes := englishNumbers.map natToBE

/-- Numbers 0 to 127 of xcore/bip39/words/chinese.go:9 -/
def chinese0 : List Nat :=
  [0xe79a84, 0xe4b880, 0xe698af, 0xe59ca8, 0xe4b88d, 0xe4ba86, 0xe69c89, 0xe5928c, 0xe4baba, 0xe8bf99, 0xe4b8ad,
    0xe5a4a7, 0xe4b8ba, 0xe4b88a, 0xe4b8aa, 0xe59bbd, 0xe68891, 0xe4bba5, 0xe8a681, 0xe4bb96, 0xe697b6, 0xe69da5,
    0xe794a8, 0xe4bbac, 0xe7949f, 0xe588b0, 0xe4bd9c, 0xe59cb0, 0xe4ba8e, 0xe587ba, 0xe5b0b1, 0xe58886, 0xe5afb9,
    0xe68890, 0xe4bc9a, 0xe58faf, 0xe4b8bb, 0xe58f91, 0xe5b9b4, 0xe58aa8, 0xe5908c, 0xe5b7a5, 0xe4b99f, 0xe883bd,
    0xe4b88b, 0xe8bf87, 0xe5ad90, 0xe8afb4, 0xe4baa7, 0xe7a78d, 0xe99da2, 0xe8808c, 0xe696b9, 0xe5908e, 0xe5a49a,
    0xe5ae9a, 0xe8a18c, 0xe5ada6, 0xe6b395, 0xe68980, 0xe6b091, 0xe5be97, 0xe7bb8f, 0xe58d81, 0xe4b889, 0xe4b98b,
    0xe8bf9b, 0xe79d80, 0xe7ad89, 0xe983a8, 0xe5baa6, 0xe5aeb6, 0xe794b5, 0xe58a9b, 0xe9878c, 0xe5a682, 0xe6b0b4,
    0xe58c96, 0xe9ab98, 0xe887aa, 0xe4ba8c, 0xe79086, 0xe8b5b7, 0xe5b08f, 0xe789a9, 0xe78eb0, 0xe5ae9e, 0xe58aa0,
    0xe9878f, 0xe983bd, 0xe4b8a4, 0xe4bd93, 0xe588b6, 0xe69cba, 0xe5bd93, 0xe4bdbf, 0xe782b9, 0xe4bb8e, 0xe4b89a,
    0xe69cac, 0xe58ebb, 0xe68a8a, 0xe680a7, 0xe5a5bd, 0xe5ba94, 0xe5bc80, 0xe5ae83, 0xe59088, 0xe8bf98, 0xe59ba0,
    0xe794b1, 0xe585b6, 0xe4ba9b, 0xe784b6, 0xe5898d, 0xe5a496, 0xe5a4a9, 0xe694bf, 0xe59b9b, 0xe697a5, 0xe982a3,
    0xe7a4be, 0xe4b989, 0xe4ba8b, 0xe5b9b3, 0xe5bda2, 0xe79bb8, 0xe585a8]

/-- Numbers 128 to 255 of xcore/bip39/words/chinese.go:9 -/
def chinese1 : List Nat :=
  [0xe8a1a8, 0xe997b4, 0xe6a0b7, 0xe4b88e, 0xe585b3, 0xe59084, 0xe9878d, 0xe696b0, 0xe7babf, 0xe58685, 0xe695b0,
    0xe6ada3, 0xe5bf83, 0xe58f8d, 0xe4bda0, 0xe6988e, 0xe79c8b, 0xe58e9f, 0xe58f88, 0xe4b988, 0xe588a9, 0xe6af94,
    0xe68896, 0xe4bd86, 0xe8b4a8, 0xe6b094, 0xe7acac, 0xe59091, 0xe98193, 0xe591bd, 0xe6ada4, 0xe58f98, 0xe69da1,
    0xe58faa, 0xe6b2a1, 0xe7bb93, 0xe8a7a3, 0xe997ae, 0xe6848f, 0xe5bbba, 0xe69c88, 0xe585ac, 0xe697a0, 0xe7b3bb,
    0xe5869b, 0xe5be88, 0xe68385, 0xe88085, 0xe69c80, 0xe7ab8b, 0xe4bba3, 0xe683b3, 0xe5b7b2, 0xe9809a, 0xe5b9b6,
    0xe68f90, 0xe79bb4, 0xe9a298, 0xe5859a, 0xe7a88b, 0xe5b195, 0xe4ba94, 0xe69e9c, 0xe69699, 0xe8b1a1, 0xe59198,
    0xe99da9, 0xe4bd8d, 0xe585a5, 0xe5b8b8, 0xe69687, 0xe680bb, 0xe6aca1, 0xe59381, 0xe5bc8f, 0xe6b4bb, 0xe8aebe,
    0xe58f8a, 0xe7aea1, 0xe789b9, 0xe4bbb6, 0xe995bf, 0xe6b182, 0xe88081, 0xe5a4b4, 0xe59fba, 0xe8b584, 0xe8beb9,
    0xe6b581, 0xe8b7af, 0xe7baa7, 0xe5b091, 0xe59bbe, 0xe5b1b1, 0xe7bb9f, 0xe68ea5, 0xe79fa5, 0xe8be83, 0xe5b086,
    0xe7bb84, 0xe8a781, 0xe8aea1, 0xe588ab, 0xe5a5b9, 0xe6898b, 0xe8a792, 0xe69c9f, 0xe6a0b9, 0xe8aeba, 0xe8bf90,
    0xe5869c, 0xe68c87, 0xe587a0, 0xe4b99d, 0xe58cba, 0xe5bcba, 0xe694be, 0xe586b3, 0xe8a5bf, 0xe8a2ab, 0xe5b9b2,
    0xe5819a, 0xe5bf85, 0xe68898, 0xe58588, 0xe59b9e, 0xe58899, 0xe4bbbb]

/-- Numbers 256 to 383 of xcore/bip39/words/chinese.go:9 -/
def chinese2 : List Nat :=
  [0xe58f96, 0xe68dae, 0xe5a484, 0xe9989f, 0xe58d97, 0xe7bb99, 0xe889b2, 0xe58589, 0xe997a8, 0xe58db3, 0xe4bf9d,
    0xe6b2bb, 0xe58c97, 0xe980a0, 0xe799be, 0xe8a784, 0xe783ad, 0xe9a286, 0xe4b883, 0xe6b5b7, 0xe58fa3, 0xe4b89c,
    0xe5afbc, 0xe599a8, 0xe58e8b, 0xe5bf97, 0xe4b896, 0xe98791, 0xe5a29e, 0xe4ba89, 0xe6b58e, 0xe998b6, 0xe6b2b9,
    0xe6809d, 0xe69caf, 0xe69e81, 0xe4baa4, 0xe58f97, 0xe88194, 0xe4bb80, 0xe8aea4, 0xe585ad, 0xe585b1, 0xe69d83,
    0xe694b6, 0xe8af81, 0xe694b9, 0xe6b885, 0xe7be8e, 0xe5868d, 0xe98787, 0xe8bdac, 0xe69bb4, 0xe58d95, 0xe9a38e,
    0xe58887, 0xe68993, 0xe799bd, 0xe69599, 0xe9809f, 0xe88ab1, 0xe5b8a6, 0xe5ae89, 0xe59cba, 0xe8baab, 0xe8bda6,
    0xe4be8b, 0xe79c9f, 0xe58aa1, 0xe585b7, 0xe4b887, 0xe6af8f, 0xe79bae, 0xe887b3, 0xe8bebe, 0xe8b5b0, 0xe7a7af,
    0xe7a4ba, 0xe8aeae, 0xe5a3b0, 0xe68aa5, 0xe69697, 0xe5ae8c, 0xe7b1bb, 0xe585ab, 0xe7a6bb, 0xe58d8e, 0xe5908d,
    0xe7a1ae, 0xe6898d, 0xe7a791, 0xe5bca0, 0xe4bfa1, 0xe9a9ac, 0xe88a82, 0xe8af9d, 0xe7b1b3, 0xe695b4, 0xe7a9ba,
    0xe58583, 0xe586b5, 0xe4bb8a, 0xe99b86, 0xe6b8a9, 0xe4bca0, 0xe59c9f, 0xe8aeb8, 0xe6ada5, 0xe7bea4, 0xe5b9bf,
    0xe79fb3, 0xe8aeb0, 0xe99c80, 0xe6aeb5, 0xe7a094, 0xe7958c, 0xe68b89, 0xe69e97, 0xe5be8b, 0xe58fab, 0xe4b894,
    0xe7a9b6, 0xe8a782, 0xe8b68a, 0xe7bb87, 0xe8a385, 0xe5bdb1, 0xe7ae97]

/-- Numbers 384 to 511 of xcore/bip39/words/chinese.go:9 -/
def chinese3 : List Nat :=
  [0xe4bd8e, 0xe68c81, 0xe99fb3, 0xe4bc97, 0xe4b9a6, 0xe5b883, 0xe5a48d, 0xe5aeb9, 0xe584bf, 0xe9a1bb, 0xe99985,
    0xe59586, 0xe99d9e, 0xe9aa8c, 0xe8bf9e, 0xe696ad, 0xe6b7b1, 0xe99abe, 0xe8bf91, 0xe79fbf, 0xe58d83, 0xe591a8,
    0xe5a794, 0xe7b4a0, 0xe68a80, 0xe5a487, 0xe58d8a, 0xe58a9e, 0xe99d92, 0xe79c81, 0xe58897, 0xe4b9a0, 0xe5938d,
    0xe7baa6, 0xe694af, 0xe888ac, 0xe58fb2, 0xe6849f, 0xe58ab3, 0xe4bebf, 0xe59ba2, 0xe5be80, 0xe985b8, 0xe58e86,
    0xe5b882, 0xe5858b, 0xe4bd95, 0xe999a4, 0xe6b688, 0xe69e84, 0xe5ba9c, 0xe7a7b0, 0xe5a4aa, 0xe58786, 0xe7b2be,
    0xe580bc, 0xe58fb7, 0xe78e87, 0xe6978f, 0xe7bbb4, 0xe58892, 0xe98089, 0xe6a087, 0xe58699, 0xe5ad98, 0xe58099,
    0xe6af9b, 0xe4bab2, 0xe5bfab, 0xe69588, 0xe696af, 0xe999a2, 0xe69fa5, 0xe6b19f, 0xe59e8b, 0xe79cbc, 0xe78e8b,
    0xe68c89, 0xe6a0bc, 0xe585bb, 0xe69893, 0xe7bdae, 0xe6b4be, 0xe5b182, 0xe78987, 0xe5a78b, 0xe58db4, 0xe4b893,
    0xe78ab6, 0xe882b2, 0xe58e82, 0xe4baac, 0xe8af86, 0xe98082, 0xe5b19e, 0xe59c86, 0xe58c85, 0xe781ab, 0xe4bd8f,
    0xe8b083, 0xe6bba1, 0xe58ebf, 0xe5b180, 0xe785a7, 0xe58f82, 0xe7baa2, 0xe7bb86, 0xe5bc95, 0xe590ac, 0xe8afa5,
    0xe99381, 0xe4bbb7, 0xe4b8a5, 0xe9a696, 0xe5ba95, 0xe6b6b2, 0xe5ae98, 0xe5beb7, 0xe99a8f, 0xe79785, 0xe88b8f,
    0xe5a4b1, 0xe5b094, 0xe6adbb, 0xe8aeb2, 0xe9858d, 0xe5a5b3, 0xe9bb84]

/-- Numbers 512 to 639 of xcore/bip39/words/chinese.go:9 -/
def chinese4 : List Nat :=
  [0xe68ea8, 0xe698be, 0xe8b088, 0xe7bdaa, 0xe7a59e, 0xe889ba, 0xe591a2, 0xe5b8ad, 0xe590ab, 0xe4bc81, 0xe69c9b,
    0xe5af86, 0xe689b9, 0xe890a5, 0xe9a1b9, 0xe998b2, 0xe4b8be, 0xe79083, 0xe88bb1, 0xe6b0a7, 0xe58abf, 0xe5918a,
    0xe69d8e, 0xe58fb0, 0xe890bd, 0xe69ca8, 0xe5b8ae, 0xe8bdae, 0xe7a0b4, 0xe4ba9a, 0xe5b888, 0xe59bb4, 0xe6b3a8,
    0xe8bf9c, 0xe5ad97, 0xe69d90, 0xe68e92, 0xe4be9b, 0xe6b2b3, 0xe68081, 0xe5b081, 0xe58fa6, 0xe696bd, 0xe5878f,
    0xe6a091, 0xe6bab6, 0xe6808e, 0xe6ada2, 0xe6a188, 0xe8a880, 0xe5a3ab, 0xe59d87, 0xe6ada6, 0xe59bba, 0xe58fb6,
    0xe9b1bc, 0xe6b3a2, 0xe8a786, 0xe4bb85, 0xe8b4b9, 0xe7b4a7, 0xe788b1, 0xe5b7a6, 0xe7aba0, 0xe697a9, 0xe69c9d,
    0xe5aeb3, 0xe7bbad, 0xe8bdbb, 0xe69c8d, 0xe8af95, 0xe9a39f, 0xe58585, 0xe585b5, 0xe6ba90, 0xe588a4, 0xe68aa4,
    0xe58fb8, 0xe8b6b3, 0xe69f90, 0xe7bb83, 0xe5b7ae, 0xe887b4, 0xe69dbf, 0xe794b0, 0xe9998d, 0xe9bb91, 0xe78aaf,
    0xe8b49f, 0xe587bb, 0xe88c83, 0xe7bba7, 0xe585b4, 0xe4bcbc, 0xe4bd99, 0xe59d9a, 0xe69bb2, 0xe8be93, 0xe4bfae,
    0xe69585, 0xe59f8e, 0xe5a4ab, 0xe5a49f, 0xe98081, 0xe7ac94, 0xe888b9, 0xe58da0, 0xe58fb3, 0xe8b4a2, 0xe59083,
    0xe5af8c, 0xe698a5, 0xe8818c, 0xe8a789, 0xe6b189, 0xe794bb, 0xe58a9f, 0xe5b7b4, 0xe8b79f, 0xe899bd, 0xe69d82,
    0xe9a39e, 0xe6a380, 0xe590b8, 0xe58aa9, 0xe58d87, 0xe998b3, 0xe4ba92]

/-- Numbers 640 to 767 of xcore/bip39/words/chinese.go:9 -/
def chinese5 : List Nat :=
  [0xe5889d, 0xe5889b, 0xe68a97, 0xe88083, 0xe68a95, 0xe59d8f, 0xe7ad96, 0xe58fa4, 0xe5be84, 0xe68da2, 0xe69caa,
    0xe8b791, 0xe79599, 0xe992a2, 0xe69bbe, 0xe7abaf, 0xe8b4a3, 0xe7ab99, 0xe7ae80, 0xe8bfb0, 0xe992b1, 0xe589af,
    0xe5b0bd, 0xe5b89d, 0xe5b084, 0xe88d89, 0xe586b2, 0xe689bf, 0xe78bac, 0xe4bba4, 0xe99990, 0xe998bf, 0xe5aea3,
    0xe78eaf, 0xe58f8c, 0xe8afb7, 0xe8b685, 0xe5beae, 0xe8aea9, 0xe68ea7, 0xe5b79e, 0xe889af, 0xe8bdb4, 0xe689be,
    0xe590a6, 0xe7baaa, 0xe79b8a, 0xe4be9d, 0xe4bc98, 0xe9a1b6, 0xe7a180, 0xe8bdbd, 0xe58092, 0xe688bf, 0xe7aa81,
    0xe59d90, 0xe7b289, 0xe6958c, 0xe795a5, 0xe5aea2, 0xe8a281, 0xe586b7, 0xe8839c, 0xe7bb9d, 0xe69e90, 0xe59d97,
    0xe58982, 0xe6b58b, 0xe4b89d, 0xe58d8f, 0xe8af89, 0xe5bfb5, 0xe99988, 0xe4bb8d, 0xe7bd97, 0xe79b90, 0xe58f8b,
    0xe6b48b, 0xe99499, 0xe88ba6, 0xe5a49c, 0xe58891, 0xe7a7bb, 0xe9a291, 0xe98090, 0xe99da0, 0xe6b7b7, 0xe6af8d,
    0xe79fad, 0xe79aae, 0xe7bb88, 0xe8819a, 0xe6b1bd, 0xe69d91, 0xe4ba91, 0xe593aa, 0xe697a2, 0xe8b79d, 0xe58dab,
    0xe5819c, 0xe78388, 0xe5a4ae, 0xe5af9f, 0xe783a7, 0xe8bf85, 0xe5a283, 0xe88ba5, 0xe58db0, 0xe6b4b2, 0xe588bb,
    0xe68bac, 0xe6bf80, 0xe5ad94, 0xe6909e, 0xe7949a, 0xe5aea4, 0xe5be85, 0xe6a0b8, 0xe6a0a1, 0xe695a3, 0xe4beb5,
    0xe590a7, 0xe794b2, 0xe6b8b8, 0xe4b985, 0xe88f9c, 0xe591b3, 0xe697a7]

/-- Numbers 768 to 895 of xcore/bip39/words/chinese.go:9 -/
def chinese6 : List Nat :=
  [0xe6a8a1, 0xe6b996, 0xe8b4a7, 0xe68d9f, 0xe9a284, 0xe998bb, 0xe6afab, 0xe699ae, 0xe7a8b3, 0xe4b999, 0xe5a688,
    0xe6a48d, 0xe681af, 0xe689a9, 0xe993b6, 0xe8afad, 0xe68ca5, 0xe98592, 0xe5ae88, 0xe68bbf, 0xe5ba8f, 0xe7bab8,
    0xe58cbb, 0xe7bcba, 0xe99ba8, 0xe59097, 0xe99288, 0xe58898, 0xe5958a, 0xe680a5, 0xe594b1, 0xe8afaf, 0xe8aead,
    0xe684bf, 0xe5aea1, 0xe99984, 0xe88eb7, 0xe88cb6, 0xe9b29c, 0xe7b2ae, 0xe696a4, 0xe5ada9, 0xe884b1, 0xe7a1ab,
    0xe882a5, 0xe59684, 0xe9be99, 0xe6bc94, 0xe788b6, 0xe6b890, 0xe8a180, 0xe6aca2, 0xe6a2b0, 0xe68e8c, 0xe6ad8c,
    0xe6b299, 0xe5889a, 0xe694bb, 0xe8b093, 0xe79bbe, 0xe8aea8, 0xe6999a, 0xe7b292, 0xe4b9b1, 0xe78783, 0xe79f9b,
    0xe4b98e, 0xe69d80, 0xe88daf, 0xe5ae81, 0xe9b281, 0xe8b4b5, 0xe9929f, 0xe785a4, 0xe8afbb, 0xe78fad, 0xe4bcaf,
    0xe9a699, 0xe4bb8b, 0xe8bfab, 0xe58fa5, 0xe4b8b0, 0xe59fb9, 0xe68fa1, 0xe585b0, 0xe68b85, 0xe5bca6, 0xe89b8b,
    0xe6b289, 0xe58187, 0xe7a9bf, 0xe689a7, 0xe7ad94, 0xe4b990, 0xe8b081, 0xe9a1ba, 0xe7839f, 0xe7bca9, 0xe5be81,
    0xe884b8, 0xe5969c, 0xe69dbe, 0xe8849a, 0xe59bb0, 0xe5bc82, 0xe5858d, 0xe8838c, 0xe6989f, 0xe7a68f, 0xe4b9b0,
    0xe69f93, 0xe4ba95, 0xe6a682, 0xe685a2, 0xe68095, 0xe7a381, 0xe5808d, 0xe7a596, 0xe79a87, 0xe4bf83, 0xe99d99,
    0xe8a1a5, 0xe8af84, 0xe7bfbb, 0xe88289, 0xe8b7b5, 0xe5b0bc, 0xe8a1a3]

/-- Numbers 896 to 1023 of xcore/bip39/words/chinese.go:9 -/
def chinese7 : List Nat :=
  [0xe5aebd, 0xe689ac, 0xe6a389, 0xe5b88c, 0xe4bca4, 0xe6938d, 0xe59e82, 0xe7a78b, 0xe5ae9c, 0xe6b0a2, 0xe5a597,
    0xe79da3, 0xe68caf, 0xe69eb6, 0xe4baae, 0xe69cab, 0xe5aeaa, 0xe5ba86, 0xe7bc96, 0xe7899b, 0xe8a7a6, 0xe698a0,
    0xe99bb7, 0xe99480, 0xe8af97, 0xe5baa7, 0xe5b185, 0xe68a93, 0xe8a382, 0xe8839e, 0xe591bc, 0xe5a898, 0xe699af,
    0xe5a881, 0xe7bbbf, 0xe699b6, 0xe58e9a, 0xe79b9f, 0xe8a1a1, 0xe9b8a1, 0xe5ad99, 0xe5bbb6, 0xe58db1, 0xe883b6,
    0xe5b18b, 0xe4b9a1, 0xe4b8b4, 0xe99986, 0xe9a1be, 0xe68e89, 0xe59180, 0xe781af, 0xe5b281, 0xe68eaa, 0xe69d9f,
    0xe88090, 0xe589a7, 0xe78e89, 0xe8b5b5, 0xe8b7b3, 0xe593a5, 0xe5ada3, 0xe8afbe, 0xe587af, 0xe883a1, 0xe9a29d,
    0xe6acbe, 0xe7bb8d, 0xe58db7, 0xe9bd90, 0xe4bc9f, 0xe892b8, 0xe6ae96, 0xe6b0b8, 0xe5ae97, 0xe88b97, 0xe5b79d,
    0xe78289, 0xe5b2a9, 0xe5bcb1, 0xe99bb6, 0xe69da8, 0xe5a58f, 0xe6b2bf, 0xe99cb2, 0xe69d86, 0xe68ea2, 0xe6bb91,
    0xe99587, 0xe9a5ad, 0xe6b593, 0xe888aa, 0xe68080, 0xe8b5b6, 0xe5ba93, 0xe5a4ba, 0xe4bc8a, 0xe781b5, 0xe7a88e,
    0xe98094, 0xe781ad, 0xe8b59b, 0xe5bd92, 0xe58fac, 0xe9bc93, 0xe692ad, 0xe79b98, 0xe8a381, 0xe999a9, 0xe5bab7,
    0xe594af, 0xe5bd95, 0xe88f8c, 0xe7baaf, 0xe5809f, 0xe7b396, 0xe79b96, 0xe6a8aa, 0xe7aca6, 0xe7a781, 0xe58aaa,
    0xe5a082, 0xe59f9f, 0xe69eaa, 0xe6b6a6, 0xe5b985, 0xe59388, 0xe7ab9f]

/-- Numbers 1024 to 1151 of xcore/bip39/words/chinese.go:9 -/
def chinese8 : List Nat :=
  [0xe7869f, 0xe899ab, 0xe6b3bd, 0xe88491, 0xe5a3a4, 0xe7a2b3, 0xe6aca7, 0xe9818d, 0xe4bea7, 0xe5afa8, 0xe695a2,
    0xe5bdbb, 0xe89991, 0xe6969c, 0xe89684, 0xe5baad, 0xe7bab3, 0xe5bcb9, 0xe9a5b2, 0xe4bcb8, 0xe68a98, 0xe9baa6,
    0xe6b9bf, 0xe69a97, 0xe88db7, 0xe793a6, 0xe5a19e, 0xe5ba8a, 0xe7ad91, 0xe681b6, 0xe688b7, 0xe8aebf, 0xe5a194,
    0xe5a587, 0xe9808f, 0xe6a281, 0xe58880, 0xe6978b, 0xe8bfb9, 0xe58da1, 0xe6b0af, 0xe98187, 0xe4bbbd, 0xe6af92,
    0xe6b3a5, 0xe98080, 0xe6b497, 0xe69186, 0xe781b0, 0xe5bda9, 0xe58d96, 0xe88097, 0xe5a48f, 0xe68ba9, 0xe5bf99,
    0xe9939c, 0xe78cae, 0xe7a1ac, 0xe4ba88, 0xe7b981, 0xe59c88, 0xe99baa, 0xe587bd, 0xe4baa6, 0xe68abd, 0xe7af87,
    0xe998b5, 0xe998b4, 0xe4b881, 0xe5b0ba, 0xe8bfbd, 0xe5a086, 0xe99b84, 0xe8bf8e, 0xe6b39b, 0xe788b8, 0xe6a5bc,
    0xe981bf, 0xe8b08b, 0xe590a8, 0xe9878e, 0xe78caa, 0xe69797, 0xe7b4af, 0xe5818f, 0xe585b8, 0xe9a686, 0xe7b4a2,
    0xe7a7a6, 0xe88482, 0xe6bdae, 0xe788b7, 0xe8b186, 0xe5bfbd, 0xe68998, 0xe6838a, 0xe5a191, 0xe98197, 0xe68488,
    0xe69cb1, 0xe69bbf, 0xe7baa4, 0xe7b297, 0xe580be, 0xe5b09a, 0xe7979b, 0xe6a59a, 0xe8b0a2, 0xe5a58b, 0xe8b4ad,
    0xe7a3a8, 0xe5909b, 0xe6b1a0, 0xe69781, 0xe7a28e, 0xe9aaa8, 0xe79b91, 0xe68d95, 0xe5bc9f, 0xe69ab4, 0xe589b2,
    0xe8b4af, 0xe6ae8a, 0xe9878a, 0xe8af8d, 0xe4baa1, 0xe5a381, 0xe9a1bf]

/-- Numbers 1152 to 1279 of xcore/bip39/words/chinese.go:9 -/
def chinese9 : List Nat :=
  [0xe5ae9d, 0xe58d88, 0xe5b098, 0xe997bb, 0xe68fad, 0xe782ae, 0xe6ae8b, 0xe586ac, 0xe6a1a5, 0xe5a687, 0xe8ada6,
    0xe7bbbc, 0xe68b9b, 0xe590b4, 0xe4bb98, 0xe6b5ae, 0xe981ad, 0xe5be90, 0xe682a8, 0xe69187, 0xe8b0b7, 0xe8b59e,
    0xe7aeb1, 0xe99a94, 0xe8aea2, 0xe794b7, 0xe590b9, 0xe59bad, 0xe7bab7, 0xe59490, 0xe8b4a5, 0xe5ae8b, 0xe78ebb,
    0xe5b7a8, 0xe88095, 0xe59da6, 0xe88da3, 0xe997ad, 0xe6b9be, 0xe994ae, 0xe587a1, 0xe9a9bb, 0xe99485, 0xe69591,
    0xe681a9, 0xe589a5, 0xe5879d, 0xe7a2b1, 0xe9bdbf, 0xe688aa, 0xe782bc, 0xe9babb, 0xe7baba, 0xe7a681, 0xe5ba9f,
    0xe79b9b, 0xe78988, 0xe7bc93, 0xe58780, 0xe79d9b, 0xe6988c, 0xe5a99a, 0xe6b689, 0xe7ad92, 0xe598b4, 0xe68f92,
    0xe5b2b8, 0xe69c97, 0xe5ba84, 0xe8a197, 0xe8978f, 0xe5a791, 0xe8b4b8, 0xe88590, 0xe5a5b4, 0xe595a6, 0xe683af,
    0xe4b998, 0xe4bc99, 0xe681a2, 0xe58c80, 0xe7bab1, 0xe6898e, 0xe8bea9, 0xe880b3, 0xe5bdaa, 0xe887a3, 0xe4babf,
    0xe79283, 0xe68ab5, 0xe88489, 0xe7a780, 0xe890a8, 0xe4bf84, 0xe7bd91, 0xe8889e, 0xe5ba97, 0xe596b7, 0xe7bab5,
    0xe5afb8, 0xe6b197, 0xe68c82, 0xe6b4aa, 0xe8b4ba, 0xe997aa, 0xe69fac, 0xe78886, 0xe783af, 0xe6b4a5, 0xe7a8bb,
    0xe5a299, 0xe8bdaf, 0xe58b87, 0xe5838f, 0xe6bb9a, 0xe58e98, 0xe89299, 0xe88ab3, 0xe882af, 0xe59da1, 0xe69fb1,
    0xe88da1, 0xe885bf, 0xe4bbaa, 0xe69785, 0xe5b0be, 0xe8bda7, 0xe586b0]

/-- Numbers 1280 to 1407 of xcore/bip39/words/chinese.go:9 -/
def chinese10 : List Nat :=
  [0xe8b4a1, 0xe799bb, 0xe9bb8e, 0xe5898a, 0xe992bb, 0xe58b92, 0xe98083, 0xe99a9c, 0xe6b0a8, 0xe983ad, 0xe5b3b0,
    0xe5b881, 0xe6b8af, 0xe4bc8f, 0xe8bda8, 0xe4baa9, 0xe6af95, 0xe693a6, 0xe88eab, 0xe588ba, 0xe6b5aa, 0xe7a798,
    0xe68fb4, 0xe6a0aa, 0xe581a5, 0xe594ae, 0xe882a1, 0xe5b29b, 0xe79498, 0xe6b3a1, 0xe79da1, 0xe7aba5, 0xe993b8,
    0xe6b1a4, 0xe99880, 0xe4bc91, 0xe6b187, 0xe8888d, 0xe789a7, 0xe7bb95, 0xe782b8, 0xe593b2, 0xe7a3b7, 0xe7bba9,
    0xe69c8b, 0xe6b7a1, 0xe5b096, 0xe590af, 0xe999b7, 0xe69fb4, 0xe59188, 0xe5be92, 0xe9a29c, 0xe6b3aa, 0xe7a88d,
    0xe5bf98, 0xe6b3b5, 0xe8939d, 0xe68b96, 0xe6b49e, 0xe68e88, 0xe9959c, 0xe8be9b, 0xe5a3ae, 0xe9948b, 0xe8b4ab,
    0xe8999a, 0xe5bcaf, 0xe691a9, 0xe6b3b0, 0xe5b9bc, 0xe5bbb7, 0xe5b08a, 0xe7aa97, 0xe7bab2, 0xe5bc84, 0xe99ab6,
    0xe79691, 0xe6b08f, 0xe5aeab, 0xe5a790, 0xe99c87, 0xe7919e, 0xe680aa, 0xe5b0a4, 0xe790b4, 0xe5beaa, 0xe68f8f,
    0xe8869c, 0xe8bf9d, 0xe5a4b9, 0xe885b0, 0xe7bc98, 0xe78fa0, 0xe7a9b7, 0xe6a3ae, 0xe69e9d, 0xe7abb9, 0xe6b29f,
    0xe582ac, 0xe7bbb3, 0xe5bf86, 0xe982a6, 0xe589a9, 0xe5b9b8, 0xe6b586, 0xe6a08f, 0xe68ba5, 0xe78999, 0xe8b4ae,
    0xe7a4bc, 0xe6bba4, 0xe992a0, 0xe7bab9, 0xe7bda2, 0xe68b8d, 0xe592b1, 0xe5968a, 0xe8a296, 0xe59f83, 0xe58ba4,
    0xe7bd9a, 0xe784a6, 0xe6bd9c, 0xe4bc8d, 0xe5a2a8, 0xe6acb2, 0xe7bc9d]

/-- Numbers 1408 to 1535 of xcore/bip39/words/chinese.go:9 -/
def chinese11 : List Nat :=
  [0xe5a793, 0xe5888a, 0xe9a5b1, 0xe4bbbf, 0xe5a596, 0xe9939d, 0xe9acbc, 0xe4b8bd, 0xe8b7a8, 0xe9bb98, 0xe68c96,
    0xe993be, 0xe689ab, 0xe5969d, 0xe8a28b, 0xe782ad, 0xe6b1a1, 0xe5b995, 0xe8afb8, 0xe5bca7, 0xe58ab1, 0xe6a285,
    0xe5a5b6, 0xe6b481, 0xe781be, 0xe8889f, 0xe989b4, 0xe88baf, 0xe8aebc, 0xe68ab1, 0xe6af81, 0xe68782, 0xe5af92,
    0xe699ba, 0xe59f94, 0xe5af84, 0xe5b18a, 0xe8b783, 0xe6b8a1, 0xe68c91, 0xe4b8b9, 0xe889b0, 0xe8b49d, 0xe7a2b0,
    0xe68b94, 0xe788b9, 0xe688b4, 0xe7a081, 0xe6a2a6, 0xe88abd, 0xe78694, 0xe8b5a4, 0xe6b894, 0xe593ad, 0xe695ac,
    0xe9a297, 0xe5a594, 0xe99385, 0xe4bbb2, 0xe8998e, 0xe7a880, 0xe5a6b9, 0xe4b98f, 0xe78f8d, 0xe794b3, 0xe6a18c,
    0xe981b5, 0xe58581, 0xe99a86, 0xe89eba, 0xe4bb93, 0xe9ad8f, 0xe99490, 0xe69993, 0xe6b0ae, 0xe585bc, 0xe99a90,
    0xe7a28d, 0xe8b5ab, 0xe68ba8, 0xe5bfa0, 0xe88283, 0xe7bcb8, 0xe789b5, 0xe68aa2, 0xe58d9a, 0xe5b7a7, 0xe5a3b3,
    0xe58584, 0xe69d9c, 0xe8aeaf, 0xe8af9a, 0xe7a2a7, 0xe7a5a5, 0xe69faf, 0xe9a1b5, 0xe5b7a1, 0xe79fa9, 0xe682b2,
    0xe7818c, 0xe9be84, 0xe4bca6, 0xe7a5a8, 0xe5afbb, 0xe6a182, 0xe993ba, 0xe59ca3, 0xe68190, 0xe681b0, 0xe98391,
    0xe8b6a3, 0xe68aac, 0xe88d92, 0xe885be, 0xe8b4b4, 0xe69f94, 0xe6bbb4, 0xe78c9b, 0xe99894, 0xe8be86, 0xe5a6bb,
    0xe5a1ab, 0xe692a4, 0xe582a8, 0xe7adbe, 0xe997b9, 0xe689b0, 0xe7b4ab]

/-- Numbers 1536 to 1663 of xcore/bip39/words/chinese.go:9 -/
def chinese12 : List Nat :=
  [0xe7a082, 0xe98092, 0xe6888f, 0xe5908a, 0xe999b6, 0xe4bc90, 0xe59682, 0xe79697, 0xe793b6, 0xe5a986, 0xe68a9a,
    0xe88782, 0xe691b8, 0xe5bf8d, 0xe899be, 0xe89ca1, 0xe982bb, 0xe883b8, 0xe5b7a9, 0xe68ca4, 0xe581b6, 0xe5bc83,
    0xe6a7bd, 0xe58ab2, 0xe4b9b3, 0xe98293, 0xe59089, 0xe4bb81, 0xe78382, 0xe7a096, 0xe7a79f, 0xe4b98c, 0xe888b0,
    0xe4bcb4, 0xe7939c, 0xe6b585, 0xe4b899, 0xe69a82, 0xe787a5, 0xe6a9a1, 0xe69fb3, 0xe8bfb7, 0xe69a96, 0xe7898c,
    0xe7a7a7, 0xe88386, 0xe8afa6, 0xe7b0a7, 0xe8b88f, 0xe793b7, 0xe8b0b1, 0xe59186, 0xe5aebe, 0xe7b38a, 0xe6b49b,
    0xe8be89, 0xe684a4, 0xe7ab9e, 0xe99a99, 0xe68092, 0xe7b298, 0xe4b983, 0xe7bbaa, 0xe882a9, 0xe7b18d, 0xe6958f,
    0xe6b682, 0xe78699, 0xe79a86, 0xe4bea6, 0xe682ac, 0xe68e98, 0xe4baab, 0xe7baa0, 0xe98692, 0xe78b82, 0xe99481,
    0xe6b780, 0xe681a8, 0xe789b2, 0xe99cb8, 0xe788ac, 0xe8b58f, 0xe98086, 0xe78ea9, 0xe999b5, 0xe7a59d, 0xe7a792,
    0xe6b599, 0xe8b28c, 0xe5bdb9, 0xe5bdbc, 0xe68289, 0xe9b8ad, 0xe8b68b, 0xe587a4, 0xe699a8, 0xe7959c, 0xe8be88,
    0xe7a7a9, 0xe58db5, 0xe7bdb2, 0xe6a2af, 0xe7828e, 0xe6bba9, 0xe6a38b, 0xe9a9b1, 0xe7ad9b, 0xe5b3a1, 0xe58692,
    0xe595a5, 0xe5afbf, 0xe8af91, 0xe6b5b8, 0xe6b389, 0xe5b8bd, 0xe8bf9f, 0xe7a185, 0xe79686, 0xe8b4b7, 0xe6bc8f,
    0xe7a8bf, 0xe586a0, 0xe5aba9, 0xe88381, 0xe88aaf, 0xe789a2, 0xe58f9b]

/-- Numbers 1664 to 1791 of xcore/bip39/words/chinese.go:9 -/
def chinese13 : List Nat :=
  [0xe89a80, 0xe5a5a5, 0xe9b8a3, 0xe5b2ad, 0xe7be8a, 0xe587ad, 0xe4b8b2, 0xe5a198, 0xe7bb98, 0xe985b5, 0xe89e8d,
    0xe79b86, 0xe994a1, 0xe5ba99, 0xe7adb9, 0xe586bb, 0xe8be85, 0xe69184, 0xe8a2ad, 0xe7ad8b, 0xe68b92, 0xe5839a,
    0xe697b1, 0xe992be, 0xe9b89f, 0xe6bc86, 0xe6b288, 0xe79c89, 0xe7968f, 0xe6b7bb, 0xe6a392, 0xe7a997, 0xe7a19d,
    0xe99fa9, 0xe980bc, 0xe689ad, 0xe4bea8, 0xe58789, 0xe68cba, 0xe7a297, 0xe6a0bd, 0xe78292, 0xe69daf, 0xe682a3,
    0xe9a68f, 0xe58a9d, 0xe8b1aa, 0xe8bebd, 0xe58b83, 0xe9b8bf, 0xe697a6, 0xe5908f, 0xe68b9c, 0xe78b97, 0xe59f8b,
    0xe8be8a, 0xe68ea9, 0xe9a5ae, 0xe690ac, 0xe9aa82, 0xe8be9e, 0xe58bbe, 0xe689a3, 0xe4bcb0, 0xe8928b, 0xe7bb92,
    0xe99bbe, 0xe4b888, 0xe69cb5, 0xe5a786, 0xe68b9f, 0xe5ae87, 0xe8be91, 0xe99995, 0xe99b95, 0xe581bf, 0xe89384,
    0xe5b487, 0xe589aa, 0xe580a1, 0xe58e85, 0xe592ac, 0xe9a9b6, 0xe896af, 0xe588b7, 0xe696a5, 0xe795aa, 0xe8b58b,
    0xe5a589, 0xe4bd9b, 0xe6b587, 0xe6bcab, 0xe69bbc, 0xe68987, 0xe99299, 0xe6a183, 0xe689b6, 0xe4bb94, 0xe8bf94,
    0xe4bf97, 0xe4ba8f, 0xe88594, 0xe99e8b, 0xe6a3b1, 0xe8a686, 0xe6a186, 0xe68284, 0xe58f94, 0xe6929e, 0xe9aa97,
    0xe58b98, 0xe697ba, 0xe6b2b8, 0xe5ada4, 0xe59090, 0xe5ad9f, 0xe6b8a0, 0xe5b188, 0xe796be, 0xe5a699, 0xe6839c,
    0xe4bbb0, 0xe78ba0, 0xe88380, 0xe8b090, 0xe68a9b, 0xe99c89, 0xe6a191]

/-- Numbers 1792 to 1919 of xcore/bip39/words/chinese.go:9 -/
def chinese14 : List Nat :=
  [0xe5b297, 0xe5989b, 0xe8a1b0, 0xe79b97, 0xe6b897, 0xe8848f, 0xe8b596, 0xe6b68c, 0xe7949c, 0xe69bb9, 0xe99885,
    0xe8828c, 0xe593a9, 0xe58e89, 0xe78383, 0xe7baac, 0xe6af85, 0xe698a8, 0xe4bcaa, 0xe79787, 0xe785ae, 0xe58fb9,
    0xe99289, 0xe690ad, 0xe88c8e, 0xe7acbc, 0xe985b7, 0xe581b7, 0xe5bc93, 0xe994a5, 0xe68192, 0xe69db0, 0xe59d91,
    0xe9bcbb, 0xe7bfbc, 0xe7bab6, 0xe58f99, 0xe78bb1, 0xe980ae, 0xe7bd90, 0xe7bb9c, 0xe6a39a, 0xe68a91, 0xe886a8,
    0xe894ac, 0xe5afba, 0xe9aaa4, 0xe7a986, 0xe586b6, 0xe69eaf, 0xe5868c, 0xe5b0b8, 0xe587b8, 0xe7bb85, 0xe59daf,
    0xe789ba, 0xe784b0, 0xe8bdb0, 0xe6aca3, 0xe6998b, 0xe798a6, 0xe5bea1, 0xe994ad, 0xe994a6, 0xe4b8a7, 0xe697ac,
    0xe994bb, 0xe59e84, 0xe6909c, 0xe68991, 0xe98280, 0xe4baad, 0xe985af, 0xe8bf88, 0xe88892, 0xe88486, 0xe985b6,
    0xe997b2, 0xe5bfa7, 0xe9859a, 0xe9a1bd, 0xe7bebd, 0xe6b6a8, 0xe58db8, 0xe4bb97, 0xe999aa, 0xe8be9f, 0xe683a9,
    0xe69dad, 0xe5a79a, 0xe8829a, 0xe68d89, 0xe9a398, 0xe6bc82, 0xe69886, 0xe6acba, 0xe590be, 0xe9838e, 0xe783b7,
    0xe6b181, 0xe591b5, 0xe9a5b0, 0xe890a7, 0xe99b85, 0xe982ae, 0xe8bf81, 0xe78795, 0xe69292, 0xe5a7bb, 0xe8b5b4,
    0xe5aeb4, 0xe783a6, 0xe580ba, 0xe5b890, 0xe69691, 0xe99383, 0xe697a8, 0xe98687, 0xe891a3, 0xe9a5bc, 0xe99b8f,
    0xe5a7bf, 0xe68b8c, 0xe58285, 0xe885b9, 0xe5a6a5, 0xe68f89, 0xe8b4a4]

/-- Numbers 1920 to 2047 of xcore/bip39/words/chinese.go:9 -/
def chinese15 : List Nat :=
  [0xe68b86, 0xe6adaa, 0xe891a1, 0xe883ba, 0xe4b8a2, 0xe6b5a9, 0xe5bebd, 0xe69882, 0xe59eab, 0xe68ca1, 0xe8a788,
    0xe8b4aa, 0xe685b0, 0xe7bcb4, 0xe6b1aa, 0xe6858c, 0xe586af, 0xe8afba, 0xe5a79c, 0xe8b08a, 0xe587b6, 0xe58aa3,
    0xe8afac, 0xe88080, 0xe6988f, 0xe8baba, 0xe79b88, 0xe9aa91, 0xe4b994, 0xe6baaa, 0xe4b89b, 0xe58da2, 0xe68ab9,
    0xe997b7, 0xe592a8, 0xe588ae, 0xe9a9be, 0xe7bc86, 0xe6829f, 0xe69198, 0xe99392, 0xe68eb7, 0xe9a287, 0xe5b9bb,
    0xe69f84, 0xe683a0, 0xe683a8, 0xe4bdb3, 0xe4bb87, 0xe8858a, 0xe7aa9d, 0xe6b6a4, 0xe58991, 0xe79ea7, 0xe5a0a1,
    0xe6b3bc, 0xe891b1, 0xe7bda9, 0xe99c8d, 0xe68d9e, 0xe8838e, 0xe88b8d, 0xe6bba8, 0xe4bfa9, 0xe68d85, 0xe6b998,
    0xe7a08d, 0xe99c9e, 0xe982b5, 0xe89084, 0xe796af, 0xe6b7ae, 0xe98182, 0xe7868a, 0xe7b2aa, 0xe78398, 0xe5aebf,
    0xe6a1a3, 0xe68888, 0xe9a9b3, 0xe5ab82, 0xe8a395, 0xe5be99, 0xe7aead, 0xe68d90, 0xe882a0, 0xe69291, 0xe69992,
    0xe8bea8, 0xe6aebf, 0xe88eb2, 0xe6918a, 0xe69085, 0xe985b1, 0xe5b18f, 0xe796ab, 0xe59380, 0xe894a1, 0xe5a0b5,
    0xe6b2ab, 0xe79ab1, 0xe79585, 0xe58fa0, 0xe99881, 0xe88eb1, 0xe695b2, 0xe8be96, 0xe992a9, 0xe79795, 0xe59d9d,
    0xe5b7b7, 0xe9a5bf, 0xe7a5b8, 0xe4b898, 0xe78e84, 0xe6ba9c, 0xe69bb0, 0xe980bb, 0xe5bdad, 0xe5b09d, 0xe58dbf,
    0xe5a6a8, 0xe88987, 0xe5909e, 0xe99fa6, 0xe680a8, 0xe79fae, 0xe6ad87]

/-- The numbers of xcore/bip39/words/chinese.go:9 -/
def chineseNumbers : List Nat :=
  chinese0 ++ chinese1 ++ chinese2 ++ chinese3 ++ chinese4 ++ chinese5 ++ chinese6 ++ chinese7 ++ chinese8 ++ chinese9 ++ chinese10 ++ chinese11 ++ chinese12 ++ chinese13 ++ chinese14 ++ chinese15

/-- xcore/bip39/words/chinese.go:9 -/
def chinese : List Bytes := chineseNumbers.map natToBE

/-- Numbers 0 to 127 of xcore/bip39/words/japanese.go:9 -/
def japanese0 : List Nat :=
  [0xe38182e38184e38193e3818fe38197e38293, 0xe38182e38184e38195e381a4, 0xe38182e38184e3819fe38299,
    0xe38182e3818ae3819de38299e38289, 0xe38182e3818be381a1e38283e38293, 0xe38182e3818de3828b,
    0xe38182e38191e3818be38299e3819f, 0xe38182e38191e3828b, 0xe38182e38193e3818be38299e3828ce3828b,
    0xe38182e38195e38184, 0xe38182e38195e381b2, 0xe38182e38197e38182e381a8, 0xe38182e38197e38299e3828fe38186,
    0xe38182e38199e38299e3818be3828b, 0xe38182e38199e38299e3818d, 0xe38182e3819de381b5e38299,
    0xe38182e3819fe38188e3828b, 0xe38182e3819fe3819fe38281e3828b, 0xe38182e3819fe3828ae381bee38188,
    0xe38182e3819fe3828b, 0xe38182e381a4e38184, 0xe38182e381a4e3818be38186, 0xe38182e381a3e38197e38285e3818f,
    0xe38182e381a4e381bee3828a, 0xe38182e381a4e38281e3828b, 0xe38182e381a6e381aa, 0xe38182e381a6e381afe381bee3828b,
    0xe38182e381b2e3828b, 0xe38182e381b5e38299e38289, 0xe38182e381b5e38299e3828b, 0xe38182e381b5e3828ce3828b,
    0xe38182e381bee38184, 0xe38182e381bee381a8e38299, 0xe38182e381bee38284e3818be38199, 0xe38182e381bee3828a,
    0xe38182e381bfe38282e381ae, 0xe38182e38281e3828ae3818b, 0xe38182e38284e381bee3828b, 0xe38182e38286e38280,
    0xe38182e38289e38184e3818fe38299e381be, 0xe38182e38289e38197, 0xe38182e38289e38199e38197e38299,
    0xe38182e38289e3819fe38281e3828b, 0xe38182e38289e38286e3828b, 0xe38182e38289e3828fe38199,
    0xe38182e3828ae3818be38299e381a8e38186, 0xe38182e3828fe3819be3828b, 0xe38182e3828fe381a6e3828b,
    0xe38182e38293e38184, 0xe38182e38293e3818be38299e38184, 0xe38182e38293e38193, 0xe38182e38293e3819be38299e38293,
    0xe38182e38293e381a6e38184, 0xe38182e38293e381aae38184, 0xe38182e38293e381bee3828a,
    0xe38184e38184e3819fe38299e38199, 0xe38184e3818ae38293, 0xe38184e3818be38299e38184, 0xe38184e3818be38299e3818f,
    0xe38184e3818de3818ae38184, 0xe38184e3818de381aae3828a, 0xe38184e3818de38282e381ae, 0xe38184e3818de3828b,
    0xe38184e3818fe38197e38299, 0xe38184e3818fe381b5e38299e38293, 0xe38184e38191e381afe38299e381aa,
    0xe38184e38191e38293, 0xe38184e38193e38186, 0xe38184e38193e3818f, 0xe38184e38193e381a4,
    0xe38184e38195e381bee38197e38184, 0xe38184e38195e38293, 0xe38184e38197e3818d, 0xe38184e38197e38299e38285e38186,
    0xe38184e38197e38299e38287e38186, 0xe38184e38197e38299e3828fe3828b, 0xe38184e38199e38299e381bf,
    0xe38184e38199e38299e3828c, 0xe38184e3819be38184, 0xe38184e3819be38188e381b2e38299, 0xe38184e3819be3818be38184,
    0xe38184e3819be3818d, 0xe38184e3819be38299e38293, 0xe38184e3819de38186e3828de38186,
    0xe38184e3819de3818be38299e38197e38184, 0xe38184e3819fe38299e38184, 0xe38184e3819fe38299e3818f,
    0xe38184e3819fe38199e38299e38289, 0xe38184e3819fe381bf, 0xe38184e3819fe3828ae38182, 0xe38184e381a1e3818ae38186,
    0xe38184e381a1e38197e38299, 0xe38184e381a1e381a8e38299, 0xe38184e381a1e381afe38299, 0xe38184e381a1e381b5e38299,
    0xe38184e381a1e3828ae38285e38186, 0xe38184e381a4e3818b, 0xe38184e381a3e38197e38285e38293,
    0xe38184e381a3e3819be38184, 0xe38184e381a3e3819de38186, 0xe38184e381a3e3819fe38293, 0xe38184e381a3e381a1,
    0xe38184e381a3e381a6e38184, 0xe38184e381a3e381bbe3829ae38186, 0xe38184e381a6e38195e38299, 0xe38184e381a6e38293,
    0xe38184e381a8e38299e38186, 0xe38184e381a8e38193, 0xe38184e381aae38184, 0xe38184e381aae3818b,
    0xe38184e381ade38280e3828a, 0xe38184e381aee381a1, 0xe38184e381aee3828b, 0xe38184e381afe381a4,
    0xe38184e381afe38299e3828b, 0xe38184e381afe38293, 0xe38184e381b2e38299e3818d, 0xe38184e381b2e38293,
    0xe38184e381b5e3818f, 0xe38184e381b8e38293, 0xe38184e381bbe38186, 0xe38184e381bfe38293,
    0xe38184e38282e38186e381a8, 0xe38184e38282e3819fe3828c, 0xe38184e38282e3828a, 0xe38184e38284e3818be38299e3828b,
    0xe38184e38284e38199, 0xe38184e38288e3818be38293]

/-- Numbers 128 to 255 of xcore/bip39/words/japanese.go:9 -/
def japanese1 : List Nat :=
  [0xe38184e38288e3818f, 0xe38184e38289e38184, 0xe38184e38289e38199e381a8, 0xe38184e3828ae3818fe38299e381a1,
    0xe38184e3828ae38287e38186, 0xe38184e3828ce38184, 0xe38184e3828ce38282e381ae, 0xe38184e3828ce3828b,
    0xe38184e3828de38188e38293e381b2e3829ae381a4, 0xe38184e3828fe38184, 0xe38184e3828fe38186,
    0xe38184e3828fe3818be38293, 0xe38184e3828fe381afe38299, 0xe38184e3828fe38286e3828b,
    0xe38184e38293e38191e38299e38293e381bee38281, 0xe38184e38293e38195e381a4, 0xe38184e38293e38197e38287e38186,
    0xe38184e38293e38288e38186, 0xe38186e38188e3818d, 0xe38186e38188e3828b, 0xe38186e3818ae38195e38299,
    0xe38186e3818be38299e38184, 0xe38186e3818be381b5e38299, 0xe38186e3818be381b8e38299e3828b, 0xe38186e3818de3828f,
    0xe38186e3818fe38289e38184e381aa, 0xe38186e3818fe3828ce3828c, 0xe38186e38191e3819fe381bee3828fe3828b,
    0xe38186e38191e381a4e38191, 0xe38186e38191e381a8e3828b, 0xe38186e38191e38282e381a4, 0xe38186e38191e3828b,
    0xe38186e38193e38299e3818be38199, 0xe38186e38193e38299e3818f, 0xe38186e38193e38293, 0xe38186e38195e3818de38299,
    0xe38186e38197e381aae38186, 0xe38186e38197e3828de3818be38299e381bf, 0xe38186e38199e38184,
    0xe38186e38199e3818de38299, 0xe38186e38199e3818fe38299e38289e38184, 0xe38186e38199e38281e3828b,
    0xe38186e3819be381a4, 0xe38186e381a1e38182e3828fe3819b, 0xe38186e381a1e3818be38299e3828f, 0xe38186e381a1e3818d,
    0xe38186e381a1e38285e38186, 0xe38186e381a3e3818be3828a, 0xe38186e381a4e3818fe38197e38184,
    0xe38186e381a3e3819fe38188e3828b, 0xe38186e381a4e3828b, 0xe38186e381a8e38299e38293, 0xe38186e381aae3818de38299,
    0xe38186e381aae38197e38299, 0xe38186e381aae38199e38299e3818f, 0xe38186e381aae3828b, 0xe38186e381ade3828b,
    0xe38186e381aee38186, 0xe38186e381b5e38299e38191e38299, 0xe38186e381b5e38299e38193e38299e38188,
    0xe38186e381bee3828ce3828b, 0xe38186e38281e3828b, 0xe38186e38282e38186, 0xe38186e38284e381bee38186,
    0xe38186e38288e3818f, 0xe38186e38289e3818be38299e38188e38199, 0xe38186e38289e3818fe38299e381a1,
    0xe38186e38289e381aae38184, 0xe38186e3828ae38182e38191e38299, 0xe38186e3828ae3818de3828c,
    0xe38186e3828be38195e38184, 0xe38186e3828ce38197e38184, 0xe38186e3828ce38286e3818d, 0xe38186e3828ce3828b,
    0xe38186e3828de38193, 0xe38186e3828fe3818d, 0xe38186e3828fe38195, 0xe38186e38293e38193e38186,
    0xe38186e38293e381a1e38293, 0xe38186e38293e381a6e38293, 0xe38186e38293e381a8e38299e38186,
    0xe38188e38184e38188e38293, 0xe38188e38184e3818be38299, 0xe38188e38184e3818de38287e38186,
    0xe38188e38184e38193e38299, 0xe38188e38184e3819be38184, 0xe38188e38184e381b5e38299e38293,
    0xe38188e38184e38288e38186, 0xe38188e38184e3828f, 0xe38188e3818ae3828a, 0xe38188e3818be38299e3818a,
    0xe38188e3818be38299e3818f, 0xe38188e3818de3819fe38184, 0xe38188e3818fe3819be3828b, 0xe38188e38197e38283e3818f,
    0xe38188e38199e381a6, 0xe38188e381a4e38289e38293, 0xe38188e381aee3818fe38299, 0xe38188e381bbe38186e381bee3818d,
    0xe38188e381bbe38293, 0xe38188e381bee3818d, 0xe38188e38282e38197e38299, 0xe38188e38282e381ae,
    0xe38188e38289e38184, 0xe38188e38289e381b5e38299, 0xe38188e3828ae38182, 0xe38188e38293e38188e38293,
    0xe38188e38293e3818be38184, 0xe38188e38293e3818de38299, 0xe38188e38293e38191e38299e3818d,
    0xe38188e38293e38197e38285e38186, 0xe38188e38293e3819be38299e381a4, 0xe38188e38293e3819de3818f,
    0xe38188e38293e381a1e38287e38186, 0xe38188e38293e381a8e381a4, 0xe3818ae38184e3818be38191e3828b,
    0xe3818ae38184e38193e38199, 0xe3818ae38184e38197e38184, 0xe3818ae38184e381a4e3818f, 0xe3818ae38186e38188e38293,
    0xe3818ae38186e38195e381be, 0xe3818ae38186e38197e38299, 0xe3818ae38186e3819be381a4, 0xe3818ae38186e3819fe38184,
    0xe3818ae38186e381b5e3818f, 0xe3818ae38186e381b8e38299e38184, 0xe3818ae38186e38288e38186, 0xe3818ae38188e3828b]

/-- Numbers 256 to 383 of xcore/bip39/words/japanese.go:9 -/
def japanese2 : List Nat :=
  [0xe3818ae3818ae38184, 0xe3818ae3818ae38186, 0xe3818ae3818ae381a8e38299e3818ae3828a, 0xe3818ae3818ae38284,
    0xe3818ae3818ae38288e3819d, 0xe3818ae3818be38188e3828a, 0xe3818ae3818be38199e38299, 0xe3818ae3818be38299e38280,
    0xe3818ae3818be3828fe3828a, 0xe3818ae3818de38299e381aae38186, 0xe3818ae3818de3828b, 0xe3818ae3818fe38195e381be,
    0xe3818ae3818fe38197e38299e38287e38186, 0xe3818ae3818fe3828ae3818be38299e381aa, 0xe3818ae3818fe3828b,
    0xe3818ae3818fe3828ce3828b, 0xe3818ae38193e38199, 0xe3818ae38193e381aae38186, 0xe3818ae38193e3828b,
    0xe3818ae38195e38188e3828b, 0xe3818ae38195e381aae38184, 0xe3818ae38195e38281e3828b, 0xe3818ae38197e38184e3828c,
    0xe3818ae38197e38188e3828b, 0xe3818ae38197e38299e3818de38299, 0xe3818ae38197e38299e38195e38293,
    0xe3818ae38197e38283e3828c, 0xe3818ae3819de38289e3818f, 0xe3818ae3819de3828fe3828b,
    0xe3818ae3819fe3818be38299e38184, 0xe3818ae3819fe3818f, 0xe3818ae3819fe38299e38284e3818b,
    0xe3818ae381a1e381a4e3818f, 0xe3818ae381a3e381a8, 0xe3818ae381a4e3828a, 0xe3818ae381a6e38299e3818be38191,
    0xe3818ae381a8e38197e38282e381ae, 0xe3818ae381a8e381aae38197e38184, 0xe3818ae381a8e38299e3828a,
    0xe3818ae381a8e38299e3828de3818be38199, 0xe3818ae381afe38299e38195e38293, 0xe3818ae381bee38184e3828a,
    0xe3818ae38281e381a6e38299e381a8e38186, 0xe3818ae38282e38184e381a6e38299, 0xe3818ae38282e38186,
    0xe3818ae38282e3819fe38184, 0xe3818ae38282e381a1e38283, 0xe3818ae38284e381a4, 0xe3818ae38284e38286e381b2e38299,
    0xe3818ae38288e381bbe38299e38199, 0xe3818ae38289e38293e3819fe38299, 0xe3818ae3828de38199,
    0xe3818ae38293e3818be38299e3818f, 0xe3818ae38293e38191e38184, 0xe3818ae38293e38197e38283,
    0xe3818ae38293e3819be38293, 0xe3818ae38293e3819fe38299e38293, 0xe3818ae38293e381a1e38285e38186,
    0xe3818ae38293e381a8e38299e38191e38184, 0xe3818be38182e381a4, 0xe3818be38184e3818be38299,
    0xe3818be38299e38184e3818d, 0xe3818be38299e38184e38191e38293, 0xe3818be38299e38184e38193e38186,
    0xe3818be38184e38195e381a4, 0xe3818be38184e38197e38283, 0xe3818be38184e38199e38184e38288e3818f,
    0xe3818be38184e3819be38299e38293, 0xe3818be38184e3819de38299e38186e381a8e38299, 0xe3818be38184e381a4e38186,
    0xe3818be38184e381a6e38293, 0xe3818be38184e381a8e38186, 0xe3818be38184e381b5e3818f,
    0xe3818be38299e38184e381b8e3818d, 0xe3818be38184e381bbe38186, 0xe3818be38184e38288e38186,
    0xe3818be38299e38184e38289e38184, 0xe3818be38184e3828f, 0xe3818be38188e3828b, 0xe3818be3818ae3828a,
    0xe3818be3818be38188e3828b, 0xe3818be3818be38299e3818f, 0xe3818be3818be38299e38197, 0xe3818be3818be38299e381bf,
    0xe3818be3818fe38193e38299, 0xe3818be3818fe381a8e3818f, 0xe3818be38195e38299e3828b,
    0xe3818be38299e3819de38299e38186, 0xe3818be3819fe38184, 0xe3818be3819fe381a1, 0xe3818be38299e381a1e38287e38186,
    0xe3818be38299e381a3e3818de38285e38186, 0xe3818be38299e381a3e38193e38186, 0xe3818be38299e381a3e38195e38293,
    0xe3818be38299e381a3e38197e38287e38186, 0xe3818be381aae38195e38299e3828fe38197, 0xe3818be381aee38186,
    0xe3818be38299e381afe3818f, 0xe3818be381b5e38299e3818b, 0xe3818be381bbe38186, 0xe3818be381bbe38193e38299,
    0xe3818be381bee38186, 0xe3818be381bee381bbe38299e38193, 0xe3818be38281e3828ce3818ae38293, 0xe3818be38286e38184,
    0xe3818be38288e38186e381b2e38299, 0xe3818be38289e38184, 0xe3818be3828be38184, 0xe3818be3828de38186,
    0xe3818be3828fe3818f, 0xe3818be3828fe38289, 0xe3818be38299e38293e3818b, 0xe3818be38293e38191e38184,
    0xe3818be38293e38193e38186, 0xe3818be38293e38197e38283, 0xe3818be38293e3819de38186, 0xe3818be38293e3819fe38293,
    0xe3818be38293e381a1, 0xe3818be38299e38293e381afe38299e3828b, 0xe3818de38182e38184, 0xe3818de38182e381a4,
    0xe3818de38184e3828d, 0xe3818de38299e38184e38293, 0xe3818de38186e38184, 0xe3818de38186e38293,
    0xe3818de38188e3828b, 0xe3818de3818ae38186, 0xe3818de3818ae3818f]

/-- Numbers 384 to 511 of xcore/bip39/words/japanese.go:9 -/
def japanese3 : List Nat :=
  [0xe3818de3818ae381a1, 0xe3818de3818ae38293, 0xe3818de3818be38184, 0xe3818de3818be3818f,
    0xe3818de3818be38293e38197e38283, 0xe3818de3818de381a6, 0xe3818de3818fe381afe38299e3828a,
    0xe3818de3818fe38289e38191e38299, 0xe3818de38191e38293e3819be38184, 0xe3818de38193e38186,
    0xe3818de38193e38188e3828b, 0xe3818de38193e3818f, 0xe3818de38195e38184, 0xe3818de38195e3818f,
    0xe3818de38195e381be, 0xe3818de38195e38289e3818de38299, 0xe3818de38299e38197e38299e3818be3818be38299e3818f,
    0xe3818de38299e38197e3818d, 0xe3818de38299e38197e38299e3819fe38184e38191e38293,
    0xe3818de38299e38197e38299e381abe381a3e381a6e38184, 0xe3818de38299e38197e38299e38285e381a4e38197e38283,
    0xe3818de38199e38186, 0xe3818de3819be38184, 0xe3818de3819be3818d, 0xe3818de3819be381a4, 0xe3818de3819de38186,
    0xe3818de3819de38299e3818f, 0xe3818de3819de38299e38293, 0xe3818de3819fe38188e3828b, 0xe3818de381a1e38287e38186,
    0xe3818de381a4e38188e38293, 0xe3818de38299e381a3e381a1e3828a, 0xe3818de381a4e381a4e3818d, 0xe3818de381a4e381ad,
    0xe3818de381a6e38184, 0xe3818de381a8e38299e38186, 0xe3818de381a8e38299e3818f, 0xe3818de381aae38184,
    0xe3818de381aae3818be38299, 0xe3818de381aae38193, 0xe3818de381ace38193e38299e38197, 0xe3818de381ade38293,
    0xe3818de381aee38186, 0xe3818de381aee38197e3819f, 0xe3818de381afe3818f, 0xe3818de381b2e38299e38197e38184,
    0xe3818de381b2e38293, 0xe3818de381b5e3818f, 0xe3818de381b5e38299e38293, 0xe3818de381bbe38299e38186,
    0xe3818de381bbe38293, 0xe3818de381bee3828b, 0xe3818de381bfe381a4, 0xe3818de38280e38199e38299e3818be38197e38184,
    0xe3818de38281e3828b, 0xe3818de38282e3819fe38299e38281e38197, 0xe3818de38282e381a1, 0xe3818de38282e381ae,
    0xe3818de38283e3818f, 0xe3818de38284e3818f, 0xe3818de38299e38285e38186e381abe3818f, 0xe3818de38288e38186,
    0xe3818de38287e38186e3828ae38285e38186, 0xe3818de38289e38184, 0xe3818de38289e3818f, 0xe3818de3828ae38293,
    0xe3818de3828ce38184, 0xe3818de3828ce381a4, 0xe3818de3828de3818f, 0xe3818de38299e3828de38293,
    0xe3818de3828fe38281e3828b, 0xe3818de38299e38293e38184e3828d, 0xe3818de38293e3818be3818fe38197e38299,
    0xe3818de38293e38197e38299e38287, 0xe3818de38293e38288e38186e381b2e38299, 0xe3818fe38299e38182e38184,
    0xe3818fe38184e38199e38299, 0xe3818fe38186e3818be38293, 0xe3818fe38186e3818d, 0xe3818fe38186e3818fe38299e38293,
    0xe3818fe38186e38193e38186, 0xe3818fe38299e38186e3819be38184, 0xe3818fe38186e3819de38186,
    0xe3818fe38299e38186e3819fe38289, 0xe3818fe38186e381b5e3818f, 0xe3818fe38186e381bbe38299, 0xe3818fe3818be38293,
    0xe3818fe3818de38287e38186, 0xe3818fe38191e38299e38293, 0xe3818fe38299e38193e38186, 0xe3818fe38195e38184,
    0xe3818fe38195e3818d, 0xe3818fe38195e381afe38299e381aa, 0xe3818fe38195e3828b, 0xe3818fe38197e38283e381bf,
    0xe3818fe38197e38287e38186, 0xe3818fe38199e381aee3818d, 0xe3818fe38199e3828ae38286e381b2e38299,
    0xe3818fe3819be38191e38299, 0xe3818fe3819be38293, 0xe3818fe38299e3819fe38184e381a6e3818d,
    0xe3818fe3819fe38299e38195e3828b, 0xe3818fe3819fe381b2e38299e3828ce3828b, 0xe3818fe381a1e38193e381bf,
    0xe3818fe381a1e38195e3818d, 0xe3818fe381a4e38197e3819f, 0xe3818fe38299e381a3e38199e3828a,
    0xe3818fe381a4e3828de3818fe38299, 0xe3818fe381a8e38186e381a6e38293, 0xe3818fe381a8e38299e3818f,
    0xe3818fe381aae38293, 0xe3818fe381ade3818fe381ad, 0xe3818fe381aee38186, 0xe3818fe381b5e38186,
    0xe3818fe381bfe38182e3828fe3819b, 0xe3818fe381bfe3819fe381a6e3828b, 0xe3818fe38281e3828b,
    0xe3818fe38284e3818fe38197e38287, 0xe3818fe38289e38199, 0xe3818fe38289e381b8e38299e3828b, 0xe3818fe3828be381be,
    0xe3818fe3828ce3828b, 0xe3818fe3828de38186, 0xe3818fe3828fe38197e38184, 0xe3818fe38299e38293e3818be38293,
    0xe3818fe38299e38293e38197e38287e3818f, 0xe3818fe38299e38293e3819fe38184, 0xe3818fe38299e38293e381a6]

/-- Numbers 512 to 639 of xcore/bip39/words/japanese.go:9 -/
def japanese4 : List Nat :=
  [0xe38191e38182e381aa, 0xe38191e38184e3818be3818f, 0xe38191e38184e38191e38293, 0xe38191e38184e38193,
    0xe38191e38184e38195e381a4, 0xe38191e38299e38184e38197e38299e38285e381a4, 0xe38191e38184e3819fe38184,
    0xe38191e38299e38184e381aee38186e38197e38299e38293, 0xe38191e38184e3828ce3818d, 0xe38191e38184e3828d,
    0xe38191e3818ae381a8e38199, 0xe38191e3818ae3828ae38282e381ae, 0xe38191e38299e3818de3818b,
    0xe38191e38299e3818de38191e38299e38293, 0xe38191e38299e3818de3819fe38299e38293,
    0xe38191e38299e3818de381a1e38293, 0xe38191e38299e3818de381a8e381a4, 0xe38191e38299e3818de381af,
    0xe38191e38299e3818de38284e3818f, 0xe38191e38299e38193e38186,
    0xe38191e38299e38193e3818fe38197e38299e38287e38186, 0xe38191e38299e38195e38299e38184, 0xe38191e38195e3818d,
    0xe38191e38299e38195e38299e38293, 0xe38191e38197e3818d, 0xe38191e38197e38193e38299e38280,
    0xe38191e38197e38287e38186, 0xe38191e38299e38199e381a8, 0xe38191e3819fe381afe38299,
    0xe38191e381a1e38283e381a3e381b5e3829a, 0xe38191e381a1e38289e38199, 0xe38191e381a4e38182e381a4,
    0xe38191e381a4e38184, 0xe38191e381a4e38188e3818d, 0xe38191e381a3e38193e38293, 0xe38191e381a4e38197e38299e38287,
    0xe38191e381a3e3819be3818d, 0xe38191e381a3e381a6e38184, 0xe38191e381a4e381bee381a4,
    0xe38191e38299e381a4e38288e38186e381b2e38299, 0xe38191e38299e381a4e3828ce38184, 0xe38191e381a4e3828de38293,
    0xe38191e38299e381a8e38299e3818f, 0xe38191e381a8e381afe38299e38199, 0xe38191e381a8e3828b,
    0xe38191e381aae38191e38299, 0xe38191e381aae38199, 0xe38191e381aae381bf, 0xe38191e381ace3818d,
    0xe38191e38299e381ade381a4, 0xe38191e381ade38293, 0xe38191e381afe38184, 0xe38191e38299e381b2e38293,
    0xe38191e381b5e38299e3818be38184, 0xe38191e38299e381bbe38299e3818f, 0xe38191e381bee3828a,
    0xe38191e381bfe3818be3828b, 0xe38191e38280e38197, 0xe38191e38280e3828a, 0xe38191e38282e381ae,
    0xe38191e38289e38184, 0xe38191e3828de38191e3828d, 0xe38191e3828fe38197e38184, 0xe38191e38293e38184,
    0xe38191e38293e38188e381a4, 0xe38191e38293e3818a, 0xe38191e38293e3818b, 0xe38191e38299e38293e3818d,
    0xe38191e38293e38191e38299e38293, 0xe38191e38293e38193e38186, 0xe38191e38293e38195e3818f,
    0xe38191e38293e38197e38285e38186, 0xe38191e38293e38199e38186, 0xe38191e38299e38293e3819de38186,
    0xe38191e38293e381a1e3818f, 0xe38191e38293e381a6e38184, 0xe38191e38293e381a8e38186, 0xe38191e38293e381aae38184,
    0xe38191e38293e381abe38293, 0xe38191e38299e38293e381b5e38299e381a4, 0xe38191e38293e381be,
    0xe38191e38293e381bfe38293, 0xe38191e38293e38281e38184, 0xe38191e38293e38289e38293, 0xe38191e38293e3828a,
    0xe38193e38182e3818fe381be, 0xe38193e38184e381ac, 0xe38193e38184e381b2e38299e381a8, 0xe38193e38299e38186e38184,
    0xe38193e38186e38188e38293, 0xe38193e38186e3818ae38293, 0xe38193e38186e3818be38293,
    0xe38193e38299e38186e3818de38285e38186, 0xe38193e38299e38186e38191e38184, 0xe38193e38186e38193e38186,
    0xe38193e38186e38195e38184, 0xe38193e38186e38197e38299, 0xe38193e38186e38199e38184,
    0xe38193e38299e38186e3819be38184, 0xe38193e38186e3819de3818f, 0xe38193e38186e3819fe38184,
    0xe38193e38186e381a1e38283, 0xe38193e38186e381a4e38186, 0xe38193e38186e381a6e38184,
    0xe38193e38186e381a8e38299e38186, 0xe38193e38186e381aae38184, 0xe38193e38186e381afe38184,
    0xe38193e38299e38186e381bbe38186, 0xe38193e38299e38186e381bee38293, 0xe38193e38186e38282e3818f,
    0xe38193e38186e3828ae381a4, 0xe38193e38188e3828b, 0xe38193e3818ae3828a, 0xe38193e38299e3818be38184,
    0xe38193e38299e3818be38299e381a4, 0xe38193e38299e3818be38293, 0xe38193e3818fe38193e38299,
    0xe38193e3818fe38195e38184, 0xe38193e3818fe381a8e38186, 0xe38193e3818fe381aae38184, 0xe38193e3818fe381afe3818f,
    0xe38193e3818fe38299e381be, 0xe38193e38191e38184, 0xe38193e38191e3828b, 0xe38193e38193e381aee3818b,
    0xe38193e38193e3828d, 0xe38193e38195e38281, 0xe38193e38197e381a4]

/-- Numbers 640 to 767 of xcore/bip39/words/japanese.go:9 -/
def japanese5 : List Nat :=
  [0xe38193e38199e38186, 0xe38193e3819be38184, 0xe38193e3819be3818d, 0xe38193e3819be38299e38293,
    0xe38193e3819de3819fe38299e381a6, 0xe38193e3819fe38184, 0xe38193e3819fe38188e3828b, 0xe38193e3819fe381a4,
    0xe38193e381a1e38287e38186, 0xe38193e381a3e3818b, 0xe38193e381a4e38193e381a4, 0xe38193e381a4e381afe38299e38293,
    0xe38193e381a4e381b5e38299, 0xe38193e381a6e38184, 0xe38193e381a6e38293, 0xe38193e381a8e3818be38299e38289,
    0xe38193e381a8e38197, 0xe38193e381a8e381afe38299, 0xe38193e381a8e3828a, 0xe38193e381aae38193e38299e381aa,
    0xe38193e381ade38193e381ad, 0xe38193e381aee381bee381be, 0xe38193e381aee381bf, 0xe38193e381aee38288,
    0xe38193e38299e381afe38293, 0xe38193e381b2e381a4e38197e38299, 0xe38193e381b5e38186, 0xe38193e381b5e38293,
    0xe38193e381bbe38299e3828ce3828b, 0xe38193e38299e381bee38182e381b5e38299e38289, 0xe38193e381bee3818be38184,
    0xe38193e38299e381bee38199e3828a, 0xe38193e381bee381a4e381aa, 0xe38193e381bee3828b,
    0xe38193e38280e3818de38299e38193, 0xe38193e38282e38197e38299, 0xe38193e38282e381a1, 0xe38193e38282e381ae,
    0xe38193e38282e38293, 0xe38193e38284e3818f, 0xe38193e38284e381be, 0xe38193e38286e38186,
    0xe38193e38286e381b2e38299, 0xe38193e38288e38184, 0xe38193e38288e38186, 0xe38193e3828ae3828b,
    0xe38193e3828ce3818fe38197e38287e38293, 0xe38193e3828de381a3e38191, 0xe38193e3828fe38282e381a6,
    0xe38193e3828fe3828ce3828b, 0xe38193e38293e38184e38293, 0xe38193e38293e3818be38184, 0xe38193e38293e3818d,
    0xe38193e38293e38197e38285e38186, 0xe38193e38293e38199e38184, 0xe38193e38293e3819fe38299e381a6,
    0xe38193e38293e381a8e38293, 0xe38193e38293e381aae38293, 0xe38193e38293e381b2e38299e381ab,
    0xe38193e38293e381bbe3829ae38293, 0xe38193e38293e381bee38191, 0xe38193e38293e38284, 0xe38193e38293e3828ce38184,
    0xe38193e38293e3828fe3818f, 0xe38195e38299e38184e38188e3818d, 0xe38195e38184e3818be38184,
    0xe38195e38184e3818de38293, 0xe38195e38299e38184e38191e38299e38293, 0xe38195e38299e38184e38193,
    0xe38195e38184e38197e38287, 0xe38195e38184e3819be38184, 0xe38195e38299e38184e3819fe3818f,
    0xe38195e38299e38184e381a1e38285e38186, 0xe38195e38184e381a6e3818d, 0xe38195e38299e38184e3828ae38287e38186,
    0xe38195e38186e381aa, 0xe38195e3818be38184e38197, 0xe38195e3818be38299e38199, 0xe38195e3818be381aa,
    0xe38195e3818be381bfe381a1, 0xe38195e3818be38299e3828b, 0xe38195e3818de38299e38287e38186, 0xe38195e3818fe38197,
    0xe38195e3818fe381b2e38293, 0xe38195e3818fe38289, 0xe38195e38193e3818f, 0xe38195e38193e381a4,
    0xe38195e38199e38299e3818be3828b, 0xe38195e38299e3819be3818d, 0xe38195e3819fe38293, 0xe38195e381a4e38188e38184,
    0xe38195e38299e381a4e3818ae38293, 0xe38195e38299e381a3e3818b, 0xe38195e38299e381a4e3818be38299e3818f,
    0xe38195e381a3e3818de38287e3818f, 0xe38195e38299e381a3e38197, 0xe38195e381a4e38197e38299e38293,
    0xe38195e38299e381a3e3819de38186, 0xe38195e381a4e3819fe381afe38299, 0xe38195e381a4e381bee38184e38282,
    0xe38195e381a6e38184, 0xe38195e381a8e38184e38282, 0xe38195e381a8e38186, 0xe38195e381a8e3818ae38284,
    0xe38195e381a8e38197, 0xe38195e381a8e3828b, 0xe38195e381aee38186, 0xe38195e381afe38299e3818f,
    0xe38195e381b2e38299e38197e38184, 0xe38195e381b8e38299e381a4, 0xe38195e381bbe38186, 0xe38195e381bbe381a8e38299,
    0xe38195e381bee38199, 0xe38195e381bfe38197e38184, 0xe38195e381bfe3819fe38299e3828c, 0xe38195e38280e38191,
    0xe38195e38281e3828b, 0xe38195e38284e38188e38293e381a8e38299e38186, 0xe38195e38286e38186, 0xe38195e38288e38186,
    0xe38195e38288e3818f, 0xe38195e38289e3819fe38299, 0xe38195e38299e3828be3819de381afe38299,
    0xe38195e3828fe38284e3818b, 0xe38195e3828fe3828b, 0xe38195e38293e38184e38293, 0xe38195e38293e3818b,
    0xe38195e38293e3818de38283e3818f]

/-- Numbers 768 to 895 of xcore/bip39/words/japanese.go:9 -/
def japanese6 : List Nat :=
  [0xe38195e38293e38193e38186, 0xe38195e38293e38195e38184, 0xe38195e38299e38293e38197e38287,
    0xe38195e38293e38199e38186, 0xe38195e38293e3819be38184, 0xe38195e38293e3819d, 0xe38195e38293e381a1,
    0xe38195e38293e381be, 0xe38195e38293e381bf, 0xe38195e38293e38289e38293, 0xe38197e38182e38184,
    0xe38197e38182e38191e38299, 0xe38197e38182e38195e381a3e381a6, 0xe38197e38182e3828fe3819b, 0xe38197e38184e3818f,
    0xe38197e38184e38293, 0xe38197e38186e381a1, 0xe38197e38188e38184, 0xe38197e3818ae38191, 0xe38197e3818be38184,
    0xe38197e3818be3818f, 0xe38197e38299e3818be38293, 0xe38197e38193e38299e381a8, 0xe38197e38199e38186,
    0xe38197e38299e3819fe38299e38184, 0xe38197e3819fe38186e38191, 0xe38197e3819fe3818de38299, 0xe38197e3819fe381a6,
    0xe38197e3819fe381bf, 0xe38197e381a1e38287e38186, 0xe38197e381a1e3828ae38293, 0xe38197e381a3e3818be3828a,
    0xe38197e381a4e38197e38299, 0xe38197e381a4e38282e38293, 0xe38197e381a6e38184, 0xe38197e381a6e3818d,
    0xe38197e381a6e381a4, 0xe38197e38299e381a6e38293, 0xe38197e38299e381a8e38299e38186,
    0xe38197e381aae3818de38299e3828c, 0xe38197e381aae38282e381ae, 0xe38197e381aae38293, 0xe38197e381ade381be,
    0xe38197e381ade38293, 0xe38197e381aee3818fe38299, 0xe38197e381aee381b5e38299, 0xe38197e381afe38184,
    0xe38197e381afe38299e3818be3828a, 0xe38197e381afe381a4, 0xe38197e381afe38289e38184, 0xe38197e381afe38293,
    0xe38197e381b2e38287e38186, 0xe38197e381b5e3818f, 0xe38197e38299e381b5e38299e38293, 0xe38197e381b8e38184,
    0xe38197e381bbe38186, 0xe38197e381bbe38293, 0xe38197e381bee38186, 0xe38197e381bee3828b, 0xe38197e381bfe38293,
    0xe38197e38280e38191e3828b, 0xe38197e38299e38280e38197e38287, 0xe38197e38281e38184, 0xe38197e38281e3828b,
    0xe38197e38282e38293, 0xe38197e38283e38184e38293, 0xe38197e38283e38186e38293, 0xe38197e38283e3818ae38293,
    0xe38197e38299e38283e3818be38299e38184e38282, 0xe38197e38284e3818fe38197e38287,
    0xe38197e38283e3818fe381bbe38186, 0xe38197e38283e38191e38293, 0xe38197e38283e38193,
    0xe38197e38283e38195e38299e38184, 0xe38197e38283e38197e38293, 0xe38197e38283e3819be38293,
    0xe38197e38283e3819de38186, 0xe38197e38283e3819fe38184, 0xe38197e38283e381a1e38287e38186,
    0xe38197e38283e381a3e3818de38293, 0xe38197e38299e38283e381be, 0xe38197e38283e3828ae38293,
    0xe38197e38283e3828ce38184, 0xe38197e38299e38286e38186, 0xe38197e38299e38285e38186e38197e38287,
    0xe38197e38285e3818fe381afe3818f, 0xe38197e38299e38285e38197e38293, 0xe38197e38285e381a3e3819be3818d,
    0xe38197e38285e381bf, 0xe38197e38285e38289e381afe38299, 0xe38197e38299e38285e38293e381afe38299e38293,
    0xe38197e38287e38186e3818be38184, 0xe38197e38287e3818fe3819fe3818f, 0xe38197e38287e381a3e38191e38293,
    0xe38197e38287e381a8e38299e38186, 0xe38197e38287e38282e381a4, 0xe38197e38289e3819be3828b,
    0xe38197e38289e381b8e38299e3828b, 0xe38197e38293e3818b, 0xe38197e38293e38193e38186,
    0xe38197e38299e38293e38197e38299e38283, 0xe38197e38293e3819be38184e38197e38299, 0xe38197e38293e381a1e3818f,
    0xe38197e38293e3828ae38293, 0xe38199e38182e38191e38299, 0xe38199e38182e38197, 0xe38199e38182e381aa,
    0xe38199e38299e38182e38293, 0xe38199e38184e38188e38184, 0xe38199e38184e3818b, 0xe38199e38184e381a8e38186,
    0xe38199e38299e38184e381b5e38299e38293, 0xe38199e38184e38288e38186e381b2e38299,
    0xe38199e38186e3818be38299e3818f, 0xe38199e38186e38197e38299e381a4, 0xe38199e38186e3819be38293,
    0xe38199e3818ae381a8e38299e3828a, 0xe38199e3818de381be, 0xe38199e3818fe38186, 0xe38199e3818fe381aae38184,
    0xe38199e38191e3828b, 0xe38199e38193e38299e38184, 0xe38199e38193e38197, 0xe38199e38299e38195e38293,
    0xe38199e38199e38299e38197e38184, 0xe38199e38199e38280, 0xe38199e38199e38281e3828b, 0xe38199e381a3e3818be3828a]

/-- Numbers 896 to 1023 of xcore/bip39/words/japanese.go:9 -/
def japanese7 : List Nat :=
  [0xe38199e38299e381a3e38197e3828a, 0xe38199e38299e381a3e381a8, 0xe38199e381a6e3818d, 0xe38199e381a6e3828b,
    0xe38199e381ade3828b, 0xe38199e381aee38193, 0xe38199e381afe3819fe38299, 0xe38199e381afe38299e38289e38197e38184,
    0xe38199e38299e381b2e38287e38186, 0xe38199e38299e381b5e38299e381ace3828c, 0xe38199e381b5e38299e3828a,
    0xe38199e381b5e3828c, 0xe38199e381b8e38299e381a6, 0xe38199e381b8e38299e3828b, 0xe38199e38299e381bbe38186,
    0xe38199e381bbe38299e38293, 0xe38199e381bee38184, 0xe38199e38281e38197, 0xe38199e38282e38186,
    0xe38199e38284e3818d, 0xe38199e38289e38199e38289, 0xe38199e3828be38281, 0xe38199e3828ce381a1e3818be38299e38186,
    0xe38199e3828de381a3e381a8, 0xe38199e3828fe3828b, 0xe38199e38293e3819be38299e38293,
    0xe38199e38293e381bbe3829ae38186, 0xe3819be38182e381b5e38299e38289, 0xe3819be38184e3818be381a4,
    0xe3819be38184e38191e38299e38293, 0xe3819be38184e38197e38299, 0xe3819be38184e38288e38186, 0xe3819be3818ae38186,
    0xe3819be3818be38184e3818be38293, 0xe3819be3818de381abe38293, 0xe3819be3818de38280, 0xe3819be3818de38286,
    0xe3819be3818de38289e38293e38186e38293, 0xe3819be38191e38293, 0xe3819be38193e38186, 0xe3819be38199e38197e38299,
    0xe3819be3819fe38184, 0xe3819be3819fe38191, 0xe3819be381a3e3818be3818f, 0xe3819be381a3e3818de38283e3818f,
    0xe3819be38299e381a3e3818f, 0xe3819be381a3e38191e38293, 0xe3819be381a3e38193e381a4,
    0xe3819be381a3e38195e3819fe3818fe381be, 0xe3819be381a4e3819de38299e3818f, 0xe3819be381a4e3819fe38299e38293,
    0xe3819be381a4e381a6e38299e38293, 0xe3819be381a3e381afe3829ae38293, 0xe3819be381a4e381b2e38299,
    0xe3819be381a4e381b5e38299e38293, 0xe3819be381a4e38281e38184, 0xe3819be381a4e3828ae381a4, 0xe3819be381aae3818b,
    0xe3819be381aee381b2e38299, 0xe3819be381afe381afe38299, 0xe3819be381b2e38299e3828d, 0xe3819be381bbe38299e381ad,
    0xe3819be381bee38184, 0xe3819be381bee3828b, 0xe3819be38281e3828b, 0xe3819be38282e3819fe3828c,
    0xe3819be3828ae381b5, 0xe3819be38299e38293e38182e3818f, 0xe3819be38293e38184, 0xe3819be38293e38188e38184,
    0xe3819be38293e3818b, 0xe3819be38293e3818de38287, 0xe3819be38293e3818f, 0xe3819be38293e38191e38299e38293,
    0xe3819be38299e38293e38193e38299, 0xe3819be38293e38195e38184, 0xe3819be38293e38197e38285,
    0xe3819be38293e38199e38184, 0xe3819be38293e3819be38184, 0xe3819be38293e3819de38299, 0xe3819be38293e3819fe3818f,
    0xe3819be38293e381a1e38287e38186, 0xe3819be38293e381a6e38184, 0xe3819be38293e381a8e38186,
    0xe3819be38293e381ace3818d, 0xe3819be38293e381ade38293, 0xe3819be38293e381afe3829ae38184,
    0xe3819be38299e38293e381b5e38299, 0xe3819be38299e38293e381bbe3829ae38186, 0xe3819be38293e38280,
    0xe3819be38293e38281e38293e38197e38299e38287, 0xe3819be38293e38282e38293, 0xe3819be38293e38284e3818f,
    0xe3819be38293e38286e38186, 0xe3819be38293e38288e38186, 0xe3819be38299e38293e38289,
    0xe3819be38299e38293e3828ae38283e3818f, 0xe3819be38293e3828ce38184, 0xe3819be38293e3828d, 0xe3819de38182e3818f,
    0xe3819de38184e381a8e38191e38299e3828b, 0xe3819de38184e381ad,
    0xe3819de38186e3818be38299e38293e3818de38287e38186, 0xe3819de38186e3818d, 0xe3819de38186e38193e38299,
    0xe3819de38186e38197e38293, 0xe3819de38186e3819fe38299e38293, 0xe3819de38186e381aae38293,
    0xe3819de38186e381b2e38299, 0xe3819de38186e38281e38293, 0xe3819de38186e3828a, 0xe3819de38188e38282e381ae,
    0xe3819de38188e38293, 0xe3819de3818be38299e38184, 0xe3819de38191e38299e3818d, 0xe3819de38193e38186,
    0xe3819de38193e3819de38193, 0xe3819de38195e38299e38184, 0xe3819de38197e381aa, 0xe3819de3819be38184,
    0xe3819de3819be38293, 0xe3819de3819de3818fe38299, 0xe3819de3819fe38299e381a6e3828b, 0xe3819de381a4e38186,
    0xe3819de381a4e38188e38293, 0xe3819de381a3e3818be38293, 0xe3819de381a4e3818de38299e38287e38186,
    0xe3819de381a3e38191e381a4]

/-- Numbers 1024 to 1151 of xcore/bip39/words/japanese.go:9 -/
def japanese8 : List Nat :=
  [0xe3819de381a3e38193e38186, 0xe3819de381a3e3819be38293, 0xe3819de381a3e381a8, 0xe3819de381a8e3818be38299e3828f,
    0xe3819de381a8e381a4e38299e38289, 0xe3819de381aae38188e3828b, 0xe3819de381aae3819f, 0xe3819de381b5e381bbe38299,
    0xe3819de381bbe38299e3818f, 0xe3819de381bbe38299e3828d, 0xe3819de381bee381a4, 0xe3819de381bee3828b,
    0xe3819de38280e3818f, 0xe3819de38280e3828ae38188, 0xe3819de38281e3828b, 0xe3819de38282e3819de38282,
    0xe3819de38288e3818be3819be38299, 0xe3819de38289e381bee38281, 0xe3819de3828de38186, 0xe3819de38293e3818be38184,
    0xe3819de38293e38191e38184, 0xe3819de38293e38195e38299e38184, 0xe3819de38293e38197e381a4,
    0xe3819de38293e3819de38299e3818f, 0xe3819de38293e381a1e38287e38186, 0xe3819de38299e38293e381b2e38299,
    0xe3819de38299e38293e381b5e38299e38293, 0xe3819de38293e381bfe38293, 0xe3819fe38182e38184,
    0xe3819fe38184e38184e38293, 0xe3819fe38184e38186e38293, 0xe3819fe38184e38188e3818d, 0xe3819fe38184e3818ae38186,
    0xe3819fe38299e38184e3818be38299e3818f, 0xe3819fe38184e3818d, 0xe3819fe38184e3818fe38299e38186,
    0xe3819fe38184e38191e38293, 0xe3819fe38184e38193, 0xe3819fe38184e38195e38299e38184,
    0xe3819fe38299e38184e38197e38299e38287e38186e381b5e38299, 0xe3819fe38299e38184e38199e3818d,
    0xe3819fe38184e3819be381a4, 0xe3819fe38184e3819de38186, 0xe3819fe38299e38184e3819fe38184,
    0xe3819fe38184e381a1e38287e38186, 0xe3819fe38184e381a6e38184, 0xe3819fe38299e38184e381a8e38299e38193e3828d,
    0xe3819fe38184e381aae38184, 0xe3819fe38184e381ade381a4, 0xe3819fe38184e381aee38186, 0xe3819fe38184e381afe38293,
    0xe3819fe38299e38184e381b2e38287e38186, 0xe3819fe38184e381b5e38186, 0xe3819fe38184e381b8e38293,
    0xe3819fe38184e381bb, 0xe3819fe38184e381bee381a4e381afe38299e381aa, 0xe3819fe38184e381bfe38293e3818fe38299,
    0xe3819fe38184e38280, 0xe3819fe38184e38281e38293, 0xe3819fe38184e38284e3818d, 0xe3819fe38184e38288e38186,
    0xe3819fe38184e38289, 0xe3819fe38184e3828ae38287e3818f, 0xe3819fe38184e3828b, 0xe3819fe38184e3828fe38293,
    0xe3819fe38186e38188, 0xe3819fe38188e3828b, 0xe3819fe3818ae38199, 0xe3819fe3818ae3828b,
    0xe3819fe3818ae3828ce3828b, 0xe3819fe3818be38184, 0xe3819fe3818be381ad, 0xe3819fe3818de381b2e38299,
    0xe3819fe3818fe38195e38293, 0xe3819fe38193e3818f, 0xe3819fe38193e38284e3818d, 0xe3819fe38195e38184,
    0xe3819fe38197e38195e38299e38293, 0xe3819fe38299e38197e38299e38283e3828c, 0xe3819fe38199e38191e3828b,
    0xe3819fe38199e38299e38195e3828fe3828b, 0xe3819fe3819de3818be38299e3828c, 0xe3819fe3819fe3818be38186,
    0xe3819fe3819fe3818f, 0xe3819fe3819fe38299e38197e38184, 0xe3819fe3819fe381bf, 0xe3819fe381a1e381afe38299e381aa,
    0xe3819fe38299e381a3e3818be38184, 0xe3819fe38299e381a3e3818de38283e3818f, 0xe3819fe38299e381a3e38193,
    0xe3819fe38299e381a3e38197e38285e381a4, 0xe3819fe38299e381a3e3819fe38184, 0xe3819fe381a6e3828b,
    0xe3819fe381a8e38188e3828b, 0xe3819fe381aae381afe38299e3819f, 0xe3819fe381abe38293, 0xe3819fe381ace3818d,
    0xe3819fe381aee38197e381bf, 0xe3819fe381afe381a4, 0xe3819fe381b5e38299e38293, 0xe3819fe381b8e38299e3828b,
    0xe3819fe381bbe38299e38186, 0xe3819fe381bee38193e38299, 0xe3819fe381bee3828b, 0xe3819fe38299e38280e3828b,
    0xe3819fe38281e38184e3818d, 0xe3819fe38281e38199, 0xe3819fe38281e3828b, 0xe3819fe38282e381a4,
    0xe3819fe38284e38199e38184, 0xe3819fe38288e3828b, 0xe3819fe38289e38199,
    0xe3819fe3828ae3818de381bbe38293e3818be38299e38293, 0xe3819fe3828ae38287e38186, 0xe3819fe3828ae3828b,
    0xe3819fe3828be381a8, 0xe3819fe3828ce3828b, 0xe3819fe3828ce38293e381a8, 0xe3819fe3828de381a3e381a8,
    0xe3819fe3828fe38280e3828ce3828b, 0xe3819fe38299e38293e38182e381a4, 0xe3819fe38293e38184,
    0xe3819fe38293e3818ae38293, 0xe3819fe38293e3818b, 0xe3819fe38293e3818d, 0xe3819fe38293e38191e38293,
    0xe3819fe38293e38193e38299, 0xe3819fe38293e38195e38293]

/-- Numbers 1152 to 1279 of xcore/bip39/words/japanese.go:9 -/
def japanese9 : List Nat :=
  [0xe3819fe38293e38197e38299e38287e38186e381b2e38299, 0xe3819fe38299e38293e3819be38184,
    0xe3819fe38293e3819de3818f, 0xe3819fe38293e3819fe38184, 0xe3819fe38299e38293e381a1, 0xe3819fe38293e381a6e38184,
    0xe3819fe38293e381a8e38186, 0xe3819fe38299e38293e381aa, 0xe3819fe38293e381abe38293,
    0xe3819fe38299e38293e381ade381a4, 0xe3819fe38293e381aee38186, 0xe3819fe38293e381b2e3829ae38293,
    0xe3819fe38299e38293e381bbe38299e38186, 0xe3819fe38293e381bee381a4, 0xe3819fe38293e38281e38184,
    0xe3819fe38299e38293e3828ce381a4, 0xe3819fe38299e38293e3828d, 0xe3819fe38299e38293e3828f, 0xe381a1e38182e38184,
    0xe381a1e38182e38293, 0xe381a1e38184e3818d, 0xe381a1e38184e38195e38184, 0xe381a1e38188e38293,
    0xe381a1e3818be38184, 0xe381a1e3818be38289, 0xe381a1e3818de38285e38186, 0xe381a1e3818de38293,
    0xe381a1e38191e38184e38199e38299, 0xe381a1e38191e38293, 0xe381a1e38193e3818f, 0xe381a1e38195e38184,
    0xe381a1e38197e3818d, 0xe381a1e38197e3828ae38287e38186, 0xe381a1e3819be38184, 0xe381a1e3819de38186,
    0xe381a1e3819fe38184, 0xe381a1e3819fe38293, 0xe381a1e381a1e3818ae38284, 0xe381a1e381a4e38197e38299e38287,
    0xe381a1e381a6e3818d, 0xe381a1e381a6e38293, 0xe381a1e381ace3818d, 0xe381a1e381ace3828a, 0xe381a1e381aee38186,
    0xe381a1e381b2e38287e38186, 0xe381a1e381b8e38184e3819be38293, 0xe381a1e381bbe38186, 0xe381a1e381bee3819f,
    0xe381a1e381bfe381a4, 0xe381a1e381bfe381a8e38299e3828d, 0xe381a1e38281e38184e381a8e38299,
    0xe381a1e38283e38293e38193e381aae381b8e38299, 0xe381a1e38285e38186e38184, 0xe381a1e38286e3828ae38287e3818f,
    0xe381a1e38287e38186e38197, 0xe381a1e38287e38195e3818fe38191e38293, 0xe381a1e38289e38197, 0xe381a1e38289e381bf,
    0xe381a1e3828ae3818be38299e381bf, 0xe381a1e3828ae38287e38186, 0xe381a1e3828be381a8e38299, 0xe381a1e3828fe3828f,
    0xe381a1e38293e3819fe38184, 0xe381a1e38293e38282e3818f, 0xe381a4e38184e3818b, 0xe381a4e38184e3819fe381a1,
    0xe381a4e38186e3818b, 0xe381a4e38186e38197e38299e38287e38186, 0xe381a4e38186e381afe38293, 0xe381a4e38186e3828f,
    0xe381a4e3818be38186, 0xe381a4e3818be3828ce3828b, 0xe381a4e3818fe381ad, 0xe381a4e3818fe3828b,
    0xe381a4e38191e381ad, 0xe381a4e38191e3828b, 0xe381a4e38193e38299e38186, 0xe381a4e3819fe38188e3828b,
    0xe381a4e381a4e38299e3818f, 0xe381a4e381a4e38197e38299, 0xe381a4e381a4e38280, 0xe381a4e381a8e38281e3828b,
    0xe381a4e381aae3818be38299e3828b, 0xe381a4e381aae381bf, 0xe381a4e381ade381a4e38299e381ad, 0xe381a4e381aee3828b,
    0xe381a4e381b5e38299e38199, 0xe381a4e381bee38289e381aae38184, 0xe381a4e381bee3828b, 0xe381a4e381bfe3818d,
    0xe381a4e38281e3819fe38184, 0xe381a4e38282e3828a, 0xe381a4e38282e3828b, 0xe381a4e38288e38184,
    0xe381a4e3828be381bbe38299, 0xe381a4e3828be381bfe3818f, 0xe381a4e3828fe38282e381ae, 0xe381a4e3828fe3828a,
    0xe381a6e38182e38197, 0xe381a6e38182e381a6, 0xe381a6e38182e381bf, 0xe381a6e38184e3818ae38293,
    0xe381a6e38184e3818b, 0xe381a6e38184e3818d, 0xe381a6e38184e38191e38184, 0xe381a6e38184e38193e3818f,
    0xe381a6e38184e38195e381a4, 0xe381a6e38184e38197, 0xe381a6e38184e3819be38184, 0xe381a6e38184e3819fe38184,
    0xe381a6e38184e381a8e38299, 0xe381a6e38184e381ade38184, 0xe381a6e38184e381b2e38287e38186,
    0xe381a6e38184e381b8e38293, 0xe381a6e38184e381bbe38299e38186, 0xe381a6e38186e381a1, 0xe381a6e3818ae3818fe3828c,
    0xe381a6e3818de381a8e38186, 0xe381a6e3818fe381b2e38299, 0xe381a6e38299e38193e381bbe38299e38193,
    0xe381a6e38195e3818de38299e38287e38186, 0xe381a6e38195e38191e38299, 0xe381a6e38199e3828a, 0xe381a6e3819de38186,
    0xe381a6e381a1e3818be38299e38184, 0xe381a6e381a1e38287e38186, 0xe381a6e381a4e3818be38299e3818f,
    0xe381a6e381a4e381a4e38299e3818d]

/-- Numbers 1280 to 1407 of xcore/bip39/words/japanese.go:9 -/
def japanese10 : List Nat :=
  [0xe381a6e38299e381a3e381afe3829a, 0xe381a6e381a4e381bbe38299e38186, 0xe381a6e381a4e38284,
    0xe381a6e38299e381ace3818be38188, 0xe381a6e381ace3818d, 0xe381a6e381ace3818fe38299e38184,
    0xe381a6e381aee381b2e38289, 0xe381a6e381afe38184, 0xe381a6e381b5e38299e3818fe3828d, 0xe381a6e381b5e3819fe38299,
    0xe381a6e381bbe381a8e38299e3818d, 0xe381a6e381bbe38293, 0xe381a6e381bee38188,
    0xe381a6e381bee3818de38199e38299e38197, 0xe381a6e381bfe38197e38299e3818b, 0xe381a6e381bfe38284e38191e38299,
    0xe381a6e38289e38199, 0xe381a6e3828ce381b2e38299, 0xe381a6e3828fe38191, 0xe381a6e3828fe3819fe38197,
    0xe381a6e38299e38293e38182e381a4, 0xe381a6e38293e38184e38293, 0xe381a6e38293e3818be38184, 0xe381a6e38293e3818d,
    0xe381a6e38293e3818fe38299, 0xe381a6e38293e38191e38293, 0xe381a6e38293e38193e38299e3818f,
    0xe381a6e38293e38195e38184, 0xe381a6e38293e38197, 0xe381a6e38293e38199e38186, 0xe381a6e38299e38293e381a1,
    0xe381a6e38293e381a6e3818d, 0xe381a6e38293e381a8e38186, 0xe381a6e38293e381aae38184,
    0xe381a6e38293e381b5e3829ae38289, 0xe381a6e38293e381bbe38299e38186e3819fe38299e38184,
    0xe381a6e38293e38281e381a4, 0xe381a6e38293e38289e38293e3818be38184, 0xe381a6e38299e38293e3828ae38287e3818f,
    0xe381a6e38299e38293e3828f, 0xe381a8e38299e38182e38184, 0xe381a8e38184e3828c, 0xe381a8e38299e38186e3818be38293,
    0xe381a8e38186e3818de38285e38186, 0xe381a8e38299e38186e3818fe38299, 0xe381a8e38186e38197,
    0xe381a8e38186e38280e3818de38299, 0xe381a8e3818ae38184, 0xe381a8e3818ae3818b, 0xe381a8e3818ae3818f,
    0xe381a8e3818ae38199, 0xe381a8e3818ae3828b, 0xe381a8e3818be38184, 0xe381a8e3818be38199,
    0xe381a8e3818de3818ae3828a, 0xe381a8e3818de381a8e38299e3818d, 0xe381a8e3818fe38184,
    0xe381a8e3818fe38197e38285e38186, 0xe381a8e3818fe381a6e38293, 0xe381a8e3818fe381ab,
    0xe381a8e3818fe381b8e38299e381a4, 0xe381a8e38191e38184, 0xe381a8e38191e3828b, 0xe381a8e38193e38284,
    0xe381a8e38195e3818b, 0xe381a8e38197e38287e3818be38293, 0xe381a8e3819de38186, 0xe381a8e3819fe38293,
    0xe381a8e381a1e38285e38186, 0xe381a8e381a3e3818de38285e38186, 0xe381a8e381a3e3818fe38293,
    0xe381a8e381a4e3819be38299e38293, 0xe381a8e381a4e381abe38285e38186, 0xe381a8e381a8e38299e38191e3828b,
    0xe381a8e381a8e381aee38188e3828b, 0xe381a8e381aae38184, 0xe381a8e381aae38188e3828b, 0xe381a8e381aae3828a,
    0xe381a8e381aee38195e381be, 0xe381a8e381afe38299e38199, 0xe381a8e38299e381b5e38299e3818be38299e3828f,
    0xe381a8e381bbe38186, 0xe381a8e381bee3828b, 0xe381a8e38281e3828b, 0xe381a8e38282e3819fe38299e381a1,
    0xe381a8e38282e3828b, 0xe381a8e38299e38288e38186e381b2e38299, 0xe381a8e38289e38188e3828b,
    0xe381a8e38293e3818be381a4, 0xe381a8e38299e38293e381b5e38299e3828a, 0xe381aae38184e3818be3818f,
    0xe381aae38184e38193e38186, 0xe381aae38184e38197e38287, 0xe381aae38184e38199, 0xe381aae38184e3819be38293,
    0xe381aae38184e3819de38186, 0xe381aae3818ae38199, 0xe381aae3818be38299e38184, 0xe381aae3818fe38199,
    0xe381aae38191e38299e3828b, 0xe381aae38193e38186e381a8e38299, 0xe381aae38195e38191,
    0xe381aae3819fe381a6e38299e38193e38193, 0xe381aae381a3e381a8e38186, 0xe381aae381a4e38284e38199e381bf,
    0xe381aae381aae3818ae38197, 0xe381aae381abe38193e38299e381a8, 0xe381aae381abe38282e381ae, 0xe381aae381abe3828f,
    0xe381aae381aee3818b, 0xe381aae381b5e3819fe38299, 0xe381aae381bee38184e3818d, 0xe381aae381bee38188,
    0xe381aae381bee381bf, 0xe381aae381bfe3819fe38299, 0xe381aae38281e38289e3818b, 0xe381aae38281e3828b,
    0xe381aae38284e38280, 0xe381aae38289e38186, 0xe381aae38289e381b2e38299, 0xe381aae38289e381b5e38299,
    0xe381aae3828ce3828b, 0xe381aae3828fe381a8e381b2e38299, 0xe381aae3828fe381afe38299e3828a, 0xe381abe38182e38186,
    0xe381abe38184e3818be38299e3819f, 0xe381abe38186e38191, 0xe381abe3818ae38184]

/-- Numbers 1408 to 1535 of xcore/bip39/words/japanese.go:9 -/
def japanese11 : List Nat :=
  [0xe381abe3818be38184, 0xe381abe3818be38299e381a6, 0xe381abe3818de381b2e38299, 0xe381abe3818fe38197e381bf,
    0xe381abe3818fe381bee38293, 0xe381abe38191e38299e3828b, 0xe381abe38195e38293e3818be3819fe38293e3819d,
    0xe381abe38197e3818d, 0xe381abe3819be38282e381ae, 0xe381abe381a1e38197e38299e38287e38186,
    0xe381abe381a1e38288e38186e381b2e38299, 0xe381abe381a3e3818b, 0xe381abe381a3e3818d, 0xe381abe381a3e38191e38184,
    0xe381abe381a3e38193e38186, 0xe381abe381a3e38195e38293, 0xe381abe381a3e38197e38287e3818f,
    0xe381abe381a3e38199e38186, 0xe381abe381a3e3819be3818d, 0xe381abe381a3e381a6e38184, 0xe381abe381aae38186,
    0xe381abe381bbe38293, 0xe381abe381bee38281, 0xe381abe38282e381a4, 0xe381abe38284e3828a,
    0xe381abe38285e38186e38184e38293, 0xe381abe3828ae38293e38197e38283, 0xe381abe3828fe381a8e3828a,
    0xe381abe38293e38184, 0xe381abe38293e3818b, 0xe381abe38293e3818d, 0xe381abe38293e38191e38299e38293,
    0xe381abe38293e38197e3818d, 0xe381abe38293e38199e38299e38186, 0xe381abe38293e3819de38186,
    0xe381abe38293e3819fe38184, 0xe381abe38293e381a1, 0xe381abe38293e381a6e38184, 0xe381abe38293e381abe3818f,
    0xe381abe38293e381b5e3829a, 0xe381abe38293e381bee3828a, 0xe381abe38293e38280, 0xe381abe38293e38281e38184,
    0xe381abe38293e38288e38186, 0xe381ace38184e3818fe3818de38299, 0xe381ace3818be38199,
    0xe381ace3818fe38299e38184e381a8e3828b, 0xe381ace3818fe38299e38186, 0xe381ace3818fe38282e3828a,
    0xe381ace38199e38280, 0xe381ace381bee38188e381b2e38299, 0xe381ace38281e3828a, 0xe381ace38289e38199,
    0xe381ace38293e381a1e38283e3818f, 0xe381ade38182e38191e38299, 0xe381ade38184e3818d, 0xe381ade38184e3828b,
    0xe381ade38184e3828d, 0xe381ade3818fe38299e3819b, 0xe381ade3818fe3819fe38184, 0xe381ade3818fe38289,
    0xe381ade38193e3819be38299, 0xe381ade38193e38280, 0xe381ade38195e38191e38299, 0xe381ade38199e38193e38299e38199,
    0xe381ade3819de381b8e38299e3828b, 0xe381ade3819fe38299e38293, 0xe381ade381a4e38184, 0xe381ade381a3e38197e38293,
    0xe381ade381a4e3819de38299e38186, 0xe381ade381a3e3819fe38184e3818de38299e38287,
    0xe381ade381b5e38299e3819de3818f, 0xe381ade381b5e3819fe38299, 0xe381ade381bbe38299e38186,
    0xe381ade381bbe3828ae381afe381bbe3828a, 0xe381ade381bee3818d, 0xe381ade381bee3828fe38197, 0xe381ade381bfe381bf,
    0xe381ade38280e38184, 0xe381ade38280e3819fe38184, 0xe381ade38282e381a8, 0xe381ade38289e38186,
    0xe381ade3828fe38195e38299, 0xe381ade38293e38184e3828a, 0xe381ade38293e3818ae38197, 0xe381ade38293e3818be38293,
    0xe381ade38293e3818de38293, 0xe381ade38293e3818fe38299, 0xe381ade38293e38195e38299, 0xe381ade38293e38197,
    0xe381ade38293e381a1e38283e3818f, 0xe381ade38293e381a8e38299, 0xe381ade38293e381b2e3829a,
    0xe381ade38293e381b5e38299e381a4, 0xe381ade38293e381bee381a4, 0xe381ade38293e3828ae38287e38186,
    0xe381ade38293e3828ce38184, 0xe381aee38184e38199e38299, 0xe381aee3818ae381a4e38299e381be,
    0xe381aee3818be38299e38199, 0xe381aee3818de381aae381bf, 0xe381aee38193e3818de38299e3828a, 0xe381aee38193e38199,
    0xe381aee38193e3828b, 0xe381aee3819be3828b, 0xe381aee3819de38299e3818f, 0xe381aee3819de38299e38280,
    0xe381aee3819fe381bee38186, 0xe381aee381a1e381bbe381a8e38299, 0xe381aee381a3e3818f, 0xe381aee381afe38299e38199,
    0xe381aee381afe38289, 0xe381aee381b8e38299e3828b, 0xe381aee381bbe38299e3828b, 0xe381aee381bfe38282e381ae,
    0xe381aee38284e381be, 0xe381aee38289e38184e381ac, 0xe381aee38289e381ade38193, 0xe381aee3828ae38282e381ae,
    0xe381aee3828ae38286e3818d, 0xe381aee3828ce38293, 0xe381aee38293e3818d, 0xe381afe38299e38182e38184,
    0xe381afe38182e3818f, 0xe381afe38299e38182e38195e38293, 0xe381afe38299e38184e3818b, 0xe381afe38299e38184e3818f,
    0xe381afe38184e38191e38293]

/-- Numbers 1536 to 1663 of xcore/bip39/words/japanese.go:9 -/
def japanese12 : List Nat :=
  [0xe381afe38184e38193e38299, 0xe381afe38184e38197e38293, 0xe381afe38184e38199e38184, 0xe381afe38184e3819be38293,
    0xe381afe38184e3819de38186, 0xe381afe38184e381a1, 0xe381afe38299e38184e381afe38299e38184,
    0xe381afe38184e3828ce381a4, 0xe381afe38188e3828b, 0xe381afe3818ae3828b, 0xe381afe3818be38184,
    0xe381afe38299e3818be3828a, 0xe381afe3818be3828b, 0xe381afe3818fe38197e38285, 0xe381afe38191e38293,
    0xe381afe38193e381b5e38299, 0xe381afe38195e381bf, 0xe381afe38195e38293, 0xe381afe38197e38193e38299,
    0xe381afe38299e38197e38287, 0xe381afe38197e3828b, 0xe381afe3819be3828b, 0xe381afe3829ae3819de38193e38293,
    0xe381afe3819de38293, 0xe381afe3819fe38293, 0xe381afe381a1e381bfe381a4, 0xe381afe381a4e3818ae38293,
    0xe381afe381a3e3818be3818f, 0xe381afe381a4e38299e3818d, 0xe381afe381a3e3818de3828a, 0xe381afe381a3e3818fe381a4,
    0xe381afe381a3e38191e38293, 0xe381afe381a3e38193e38186, 0xe381afe381a3e38195e38293, 0xe381afe381a3e38197e38293,
    0xe381afe381a3e3819fe381a4, 0xe381afe381a3e381a1e38285e38186, 0xe381afe381a3e381a6e38293,
    0xe381afe381a3e381b2e3829ae38287e38186, 0xe381afe381a3e381bbe3829ae38186, 0xe381afe381aae38199,
    0xe381afe381aae381b2e38299, 0xe381afe381abe3818be38280, 0xe381afe381b5e38299e38289e38197,
    0xe381afe381bfe3818be38299e3818d, 0xe381afe38280e3818be38186, 0xe381afe38281e381a4, 0xe381afe38284e38184,
    0xe381afe38284e38197, 0xe381afe38289e38186, 0xe381afe3828de38186e38183e38293, 0xe381afe3828fe38184,
    0xe381afe38293e38184, 0xe381afe38293e38188e38184, 0xe381afe38293e3818ae38293, 0xe381afe38293e3818be3818f,
    0xe381afe38293e3818de38287e38186, 0xe381afe38299e38293e3818fe38299e381bf, 0xe381afe38293e38193,
    0xe381afe38293e38197e38283, 0xe381afe38293e38199e38186, 0xe381afe38293e3819fe38299e38293,
    0xe381afe3829ae38293e381a1, 0xe381afe3829ae38293e381a4, 0xe381afe38293e381a6e38184, 0xe381afe38293e381a8e38197,
    0xe381afe38293e381aee38186, 0xe381afe38293e381afe3829a, 0xe381afe38293e381b5e38299e38293,
    0xe381afe38293e381b8e3829ae38293, 0xe381afe38293e381bbe38299e38186e3818d, 0xe381afe38293e38281e38184,
    0xe381afe38293e38289e38293, 0xe381afe38293e3828de38293, 0xe381b2e38184e3818d, 0xe381b2e38186e38293,
    0xe381b2e38188e3828b, 0xe381b2e3818be3818f, 0xe381b2e3818be3828a, 0xe381b2e3818be3828b, 0xe381b2e3818be38293,
    0xe381b2e3818fe38184, 0xe381b2e38191e381a4, 0xe381b2e38193e38186e3818d, 0xe381b2e38193e3818f,
    0xe381b2e38195e38184, 0xe381b2e38195e38197e381b5e38299e3828a, 0xe381b2e38195e38293,
    0xe381b2e38299e38197e38299e38285e381a4e3818be38293, 0xe381b2e38197e38287, 0xe381b2e3819de3818b,
    0xe381b2e3819de38280, 0xe381b2e3819fe38280e3818d, 0xe381b2e3819fe38299e3828a, 0xe381b2e3819fe3828b,
    0xe381b2e381a4e3818de38299, 0xe381b2e381a3e38193e38197, 0xe381b2e381a3e38197,
    0xe381b2e381a4e38197e38299e38285e381b2e38293, 0xe381b2e381a3e38199, 0xe381b2e381a4e3819be38299e38293,
    0xe381b2e3829ae381a3e3819fe3828a, 0xe381b2e3829ae381a3e381a1e3828a, 0xe381b2e381a4e38288e38186,
    0xe381b2e381a6e38184, 0xe381b2e381a8e38193e38299e381bf, 0xe381b2e381aae381bee381a4e3828a, 0xe381b2e381aae38293,
    0xe381b2e381ade3828b, 0xe381b2e381afe38293, 0xe381b2e381b2e38299e3818f, 0xe381b2e381b2e38287e38186,
    0xe381b2e381bbe38186, 0xe381b2e381bee3828fe3828a, 0xe381b2e381bee38293, 0xe381b2e381bfe381a4,
    0xe381b2e38281e38184, 0xe381b2e38281e38197e38299e38197, 0xe381b2e38284e38191, 0xe381b2e38284e38199,
    0xe381b2e38288e38186, 0xe381b2e38299e38287e38186e3818d, 0xe381b2e38289e3818be38299e381aa, 0xe381b2e38289e3818f,
    0xe381b2e3828ae381a4, 0xe381b2e3828ae38287e38186, 0xe381b2e3828be381be, 0xe381b2e3828be38284e38199e381bf]

/-- Numbers 1664 to 1791 of xcore/bip39/words/japanese.go:9 -/
def japanese13 : List Nat :=
  [0xe381b2e3828ce38184, 0xe381b2e3828de38184, 0xe381b2e3828de38186, 0xe381b2e3828de3818d,
    0xe381b2e3828de38286e3818d, 0xe381b2e38293e3818be3818f, 0xe381b2e38293e38191e381a4, 0xe381b2e38293e38193e38293,
    0xe381b2e38293e38197e38285, 0xe381b2e38293e3819de38186, 0xe381b2e3829ae38293e381a1,
    0xe381b2e38293e381afe3829ae38293, 0xe381b2e38299e38293e381bbe38299e38186, 0xe381b5e38182e38293,
    0xe381b5e38184e38186e381a1, 0xe381b5e38186e38191e38184, 0xe381b5e38186e3819be38293,
    0xe381b5e3829ae38186e3819fe3828de38186, 0xe381b5e38186e381a8e38186, 0xe381b5e38186e381b5, 0xe381b5e38188e3828b,
    0xe381b5e3818ae38293, 0xe381b5e3818be38184, 0xe381b5e3818de38293, 0xe381b5e3818fe38195e38299e381a4,
    0xe381b5e3818fe381b5e38299e3818fe3828d, 0xe381b5e38193e38186, 0xe381b5e38195e38184, 0xe381b5e38197e3818de38299,
    0xe381b5e38197e38299e381bf, 0xe381b5e38199e381be, 0xe381b5e3819be38184, 0xe381b5e3819be3818fe38299,
    0xe381b5e3819de3818f, 0xe381b5e38299e3819fe381abe3818f, 0xe381b5e3819fe38293, 0xe381b5e381a1e38287e38186,
    0xe381b5e381a4e38186, 0xe381b5e381a4e3818b, 0xe381b5e381a3e3818be381a4, 0xe381b5e381a3e3818d,
    0xe381b5e381a3e38193e3818f, 0xe381b5e38299e381a8e38299e38186, 0xe381b5e381a8e3828b, 0xe381b5e381a8e38293,
    0xe381b5e381aee38186, 0xe381b5e381afe38184, 0xe381b5e381b2e38287e38186, 0xe381b5e381b8e38293,
    0xe381b5e381bee38293, 0xe381b5e381bfe38293, 0xe381b5e38281e381a4, 0xe381b5e38281e38293, 0xe381b5e38288e38186,
    0xe381b5e3828ae38193, 0xe381b5e3828ae3828b, 0xe381b5e3828be38184, 0xe381b5e38293e38184e3818d,
    0xe381b5e38299e38293e3818be38299e3818f, 0xe381b5e38299e38293e3818fe38299, 0xe381b5e38293e38197e381a4,
    0xe381b5e38299e38293e3819be3818d, 0xe381b5e38293e3819de38186, 0xe381b5e38299e38293e381bbe3829ae38186,
    0xe381b8e38184e38182e38293, 0xe381b8e38184e3818ae38293, 0xe381b8e38184e3818be38299e38184, 0xe381b8e38184e3818d,
    0xe381b8e38184e38191e38299e38293, 0xe381b8e38184e38193e38186, 0xe381b8e38184e38195, 0xe381b8e38184e38197e38283,
    0xe381b8e38184e3819be381a4, 0xe381b8e38184e3819d, 0xe381b8e38184e3819fe3818f, 0xe381b8e38184e381a6e38293,
    0xe381b8e38184e381ade381a4, 0xe381b8e38184e3828f, 0xe381b8e3818de3818be38299, 0xe381b8e38193e38280,
    0xe381b8e38299e381abe38184e3828d, 0xe381b8e38299e381abe38197e38287e38186e3818be38299, 0xe381b8e38289e38199,
    0xe381b8e38293e3818be38293, 0xe381b8e38299e38293e3818de38287e38186, 0xe381b8e38299e38293e38193e38299e38197,
    0xe381b8e38293e38195e38184, 0xe381b8e38293e3819fe38184, 0xe381b8e38299e38293e3828a, 0xe381bbe38182e38293,
    0xe381bbe38184e3818f, 0xe381bbe38299e38186e3818de38299e38287, 0xe381bbe38186e38193e3818f,
    0xe381bbe38186e3819de38186, 0xe381bbe38186e381bbe38186, 0xe381bbe38186e38282e38293, 0xe381bbe38186e3828ae381a4,
    0xe381bbe38188e3828b, 0xe381bbe3818ae38293, 0xe381bbe3818be38293, 0xe381bbe3818de38287e38186,
    0xe381bbe38299e3818de38293, 0xe381bbe3818fe3828d, 0xe381bbe38191e381a4, 0xe381bbe38191e38293,
    0xe381bbe38193e38186, 0xe381bbe38193e3828b, 0xe381bbe38197e38184, 0xe381bbe38197e381a4, 0xe381bbe38197e38285,
    0xe381bbe38197e38287e38186, 0xe381bbe3819be38184, 0xe381bbe3819de38184, 0xe381bbe3819de3818f,
    0xe381bbe3819fe381a6, 0xe381bbe3819fe3828b, 0xe381bbe3829ae381a1e381b5e38299e3818fe3828d,
    0xe381bbe381a3e3818de38287e3818f, 0xe381bbe381a3e38195, 0xe381bbe381a3e3819fe38293,
    0xe381bbe381a8e38293e381a8e38299, 0xe381bbe38281e3828b, 0xe381bbe38293e38184, 0xe381bbe38293e3818d,
    0xe381bbe38293e38191, 0xe381bbe38293e38197e381a4, 0xe381bbe38293e38284e3818f, 0xe381bee38184e381abe381a1]

/-- Numbers 1792 to 1919 of xcore/bip39/words/japanese.go:9 -/
def japanese14 : List Nat :=
  [0xe381bee3818be38184, 0xe381bee3818be3819be3828b, 0xe381bee3818be38299e3828b, 0xe381bee38191e3828b,
    0xe381bee38193e381a8, 0xe381bee38195e381a4, 0xe381bee38197e38299e38281, 0xe381bee38199e3818f,
    0xe381bee3819be38299e3828b, 0xe381bee381a4e3828a, 0xe381bee381a8e38281, 0xe381bee381aae381b5e38299,
    0xe381bee381ace38191, 0xe381bee381ade3818f, 0xe381bee381bbe38186, 0xe381bee38282e3828b,
    0xe381bee38286e38191e38299, 0xe381bee38288e38186, 0xe381bee3828de38284e3818b, 0xe381bee3828fe38199,
    0xe381bee3828fe3828a, 0xe381bee3828fe3828b, 0xe381bee38293e3818be38299, 0xe381bee38293e3818de381a4,
    0xe381bee38293e3819de38299e3818f, 0xe381bee38293e381aae3818b, 0xe381bfe38184e38289, 0xe381bfe38186e381a1,
    0xe381bfe38188e3828b, 0xe381bfe3818be38299e3818f, 0xe381bfe3818be3819f, 0xe381bfe3818be38293,
    0xe381bfe38191e38293, 0xe381bfe38193e38293, 0xe381bfe38197e38299e3818be38184, 0xe381bfe38199e38184,
    0xe381bfe38199e38188e3828b, 0xe381bfe3819be3828b, 0xe381bfe381a3e3818b, 0xe381bfe381a4e3818be3828b,
    0xe381bfe381a4e38191e3828b, 0xe381bfe381a6e38184, 0xe381bfe381a8e38281e3828b, 0xe381bfe381aae381a8,
    0xe381bfe381aae381bfe3818be38195e38184, 0xe381bfe381ade38289e3828b, 0xe381bfe381aee38186,
    0xe381bfe381aee3818be38299e38199, 0xe381bfe381bbe38293, 0xe381bfe38282e381a8, 0xe381bfe38284e38191e38299,
    0xe381bfe38289e38184, 0xe381bfe3828ae38287e3818f, 0xe381bfe3828fe3818f, 0xe381bfe38293e3818b,
    0xe381bfe38293e3819de38299e3818f, 0xe38280e38184e3818b, 0xe38280e38188e3818d, 0xe38280e38188e38293,
    0xe38280e3818be38184, 0xe38280e3818be38186, 0xe38280e3818be38188, 0xe38280e3818be38197,
    0xe38280e3818de38299e381a1e38283, 0xe38280e38191e3828b, 0xe38280e38191e38299e38293,
    0xe38280e38195e381bbe38299e3828b, 0xe38280e38197e38182e381a4e38184, 0xe38280e38197e381afe38299,
    0xe38280e38197e38299e38285e38293, 0xe38280e38197e3828d, 0xe38280e38199e38186, 0xe38280e38199e38193,
    0xe38280e38199e381b5e38299, 0xe38280e38199e38281, 0xe38280e3819be3828b, 0xe38280e3819be38293,
    0xe38280e381a1e38285e38186, 0xe38280e381aae38197e38184, 0xe38280e381aee38186, 0xe38280e38284e381bf,
    0xe38280e38288e38186, 0xe38280e38289e38195e3818d, 0xe38280e3828ae38287e38186, 0xe38280e3828de38293,
    0xe38281e38184e38182e38293, 0xe38281e38184e38186e38293, 0xe38281e38184e38188e38293, 0xe38281e38184e3818be3818f,
    0xe38281e38184e3818de38287e3818f, 0xe38281e38184e38195e38184, 0xe38281e38184e38197, 0xe38281e38184e3819de38186,
    0xe38281e38184e381b5e38299e381a4, 0xe38281e38184e3828ce38184, 0xe38281e38184e3828fe3818f,
    0xe38281e3818fe38299e381bee3828ce3828b, 0xe38281e38195e38299e38199, 0xe38281e38197e3819f,
    0xe38281e38199e38299e38289e38197e38184, 0xe38281e3819fe38299e381a4, 0xe38281e381bee38184, 0xe38281e38284e38199,
    0xe38281e38293e3818de38287, 0xe38281e38293e3819be3818d, 0xe38281e38293e381a8e38299e38186,
    0xe38282e38186e38197e38182e38191e38299e3828b, 0xe38282e38186e381a8e38299e38186e38191e38293,
    0xe38282e38188e3828b, 0xe38282e3818fe38197, 0xe38282e3818fe381a6e3818d, 0xe38282e3818fe38288e38186e381b2e38299,
    0xe38282e381a1e3828de38293, 0xe38282e381a8e38299e3828b, 0xe38282e38289e38186, 0xe38282e38293e3818f,
    0xe38282e38293e3819fe38299e38184, 0xe38284e3818ae38284, 0xe38284e38191e3828b, 0xe38284e38195e38184,
    0xe38284e38195e38197e38184, 0xe38284e38199e38184, 0xe38284e38199e3819fe3828de38186, 0xe38284e38199e381bf,
    0xe38284e3819be3828b, 0xe38284e3819de38186, 0xe38284e3819fe38184, 0xe38284e381a1e38293]

/-- Numbers 1920 to 2047 of xcore/bip39/words/japanese.go:9 -/
def japanese15 : List Nat :=
  [0xe38284e381a3e381a8, 0xe38284e381a3e381afe3829ae3828a, 0xe38284e381b5e38299e3828b, 0xe38284e38281e3828b,
    0xe38284e38284e38193e38197e38184, 0xe38284e38288e38184, 0xe38284e3828fe38289e3818be38184, 0xe38286e38186e3818d,
    0xe38286e38186e381b2e38299e38293e3818de38287e3818f, 0xe38286e38186e381b8e38299, 0xe38286e38186e38281e38184,
    0xe38286e38191e381a4, 0xe38286e38197e38285e381a4, 0xe38286e3819be38293, 0xe38286e3819de38186,
    0xe38286e3819fe3818b, 0xe38286e381a1e38283e3818f, 0xe38286e381a6e38299e3828b, 0xe38286e381abe38285e38186,
    0xe38286e381b2e38299e3828f, 0xe38286e38289e38184, 0xe38286e3828ce3828b, 0xe38288e38186e38184,
    0xe38288e38186e3818b, 0xe38288e38186e3818de38285e38186, 0xe38288e38186e38197e38299, 0xe38288e38186e38199,
    0xe38288e38186e381a1e38188e38293, 0xe38288e3818be3819be38299, 0xe38288e3818be38293, 0xe38288e3818de38293,
    0xe38288e3818fe3819be38184, 0xe38288e3818fe381bbe38299e38186, 0xe38288e38191e38184,
    0xe38288e38193e38299e3828ce3828b, 0xe38288e38195e38293, 0xe38288e38197e38285e38186, 0xe38288e3819de38186,
    0xe38288e3819de3818f, 0xe38288e381a3e3818b, 0xe38288e381a6e38184, 0xe38288e381a8e38299e3818be38299e3828fe3818f,
    0xe38288e381ade381a4, 0xe38288e38284e3818f, 0xe38288e38286e38186, 0xe38288e3828de38193e381b5e38299,
    0xe38288e3828de38197e38184, 0xe38289e38184e38186, 0xe38289e3818fe3818be38299e3818d, 0xe38289e3818fe38193e38299,
    0xe38289e3818fe38195e381a4, 0xe38289e3818fe3819fe38299, 0xe38289e38197e38293e381afe38299e38293,
    0xe38289e3819be38293, 0xe38289e3819de38299e3818f, 0xe38289e3819fe38184, 0xe38289e381a3e3818b,
    0xe38289e3828ce381a4, 0xe3828ae38188e3818d, 0xe3828ae3818be38184, 0xe3828ae3818de38195e3818f,
    0xe3828ae3818de3819be381a4, 0xe3828ae3818fe3818fe38299e38293, 0xe3828ae3818fe381a4, 0xe3828ae38191e38293,
    0xe3828ae38193e38186, 0xe3828ae3819be38184, 0xe3828ae3819de38186, 0xe3828ae3819de3818f, 0xe3828ae381a6e38293,
    0xe3828ae381ade38293, 0xe3828ae38286e38186, 0xe3828ae38285e38186e3818be38299e3818f, 0xe3828ae38288e38186,
    0xe3828ae38287e38186e3828a, 0xe3828ae38287e3818be38293, 0xe3828ae38287e3818fe381a1e38283,
    0xe3828ae38287e38193e38186, 0xe3828ae3828ae3818f, 0xe3828ae3828ce3818d, 0xe3828ae3828de38293,
    0xe3828ae38293e38193e38299, 0xe3828be38184e38191e38184, 0xe3828be38184e38195e38184, 0xe3828be38184e38197e38299,
    0xe3828be38184e3819be3818d, 0xe3828be38199e381afe38299e38293, 0xe3828be3828ae3818be38299e3828fe38289,
    0xe3828ce38184e3818be38293, 0xe3828ce38184e3818de38299, 0xe3828ce38184e3819be38184,
    0xe3828ce38184e3819de38299e38186e38193, 0xe3828ce38184e381a8e38186, 0xe3828ce38184e381bbe38299e38186,
    0xe3828ce3818de38197, 0xe3828ce3818de3819fe38299e38184, 0xe3828ce38293e38182e38184, 0xe3828ce38293e38191e38184,
    0xe3828ce38293e38193e38293, 0xe3828ce38293e38195e38184, 0xe3828ce38293e38197e38285e38186,
    0xe3828ce38293e3819de38299e3818f, 0xe3828ce38293e38289e3818f, 0xe3828de38186e3818b, 0xe3828de38186e38193e38299,
    0xe3828de38186e38197e38299e38293, 0xe3828de38186e3819de3818f, 0xe3828de3818fe3818be38299, 0xe3828de38193e381a4,
    0xe3828de38197e38299e38186e38289, 0xe3828de38197e38285e381a4, 0xe3828de3819be38293, 0xe3828de381a6e38293,
    0xe3828de38281e38293, 0xe3828de3828ce381a4, 0xe3828de38293e3818de38299, 0xe3828de38293e381afe3829a,
    0xe3828de38293e381b5e38299e38293, 0xe3828de38293e3828a, 0xe3828fe3818be38199, 0xe3828fe3818be38281,
    0xe3828fe3818be38284e381be, 0xe3828fe3818be3828ce3828b, 0xe3828fe38197e381a4, 0xe3828fe38197e38299e381bee38197,
    0xe3828fe38199e3828ce38282e381ae, 0xe3828fe38289e38186, 0xe3828fe3828ce3828b]

/-- The numbers of xcore/bip39/words/japanese.go:9 -/
def japaneseNumbers : List Nat :=
  japanese0 ++ japanese1 ++ japanese2 ++ japanese3 ++ japanese4 ++ japanese5 ++ japanese6 ++ japanese7 ++ japanese8 ++ japanese9 ++ japanese10 ++ japanese11 ++ japanese12 ++ japanese13 ++ japanese14 ++ japanese15

/-- xcore/bip39/words/japanese.go:9 -/
def japanese : List Bytes := japaneseNumbers.map natToBE

end Toku.Words
