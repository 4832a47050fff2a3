import Verif.Props.Poseidon
/-!
The hypotheses of C69 with the parameters of a published instance: the known answers of
soroban-env-host/src/test/poseidon/poseidon.rs:12-54 and soroban-env-host/src/test/poseidon/poseidon2.rs:13-54.
-/
namespace Soroban.Props

open Soroban.Poseidon Soroban.Poseidon.Spec
open Soroban.Curves (bnR)

/-- soroban-env-host/src/test/poseidon/poseidon_instance_bn254.rs `MDS3` -/
def katMds : List (List Nat) := [
  [0xbfff43619e8a576c8772f52d1e0adde3356bd099fba04b007144c032cff4f57,
   0x16bedd74d82ed159be3305d15b9a1ddc4b6568cd4bd7603f598a8c1f4f84169,
   0x24531cf9b6d1796f5d0d53e18d89a4d2f796881a8c7c03ddadcab041fba63ba6],
  [0x22516a119963325e27eab2e0eeb4d89942bdca493c42db2e8555e59215ca3eb5,
   0xd33432f40458dff4e89ca4fd82a2d22ac2bd4b71373cb2c2fe49758725bdcfb,
   0x17544a2a98d2374a892722c24d0385b16d6012b152c33c09d9fad7ca08d6196],
  [0x63ba2a4b56138708ede69ddd539987eb6adabd205c13c9f7ad1cc6c6fdb4729,
   0x1e4d9afac7c0783882b65d845dd2b2c2c5e0d992174d69603ee352a913b217c1,
   0x1ba8a85fdc68e9ce16729f88138ad006d070f438bc131d1444d02fbec4b4d231]]

/-- soroban-env-host/src/test/poseidon/poseidon_instance_bn254.rs `RC3` -/
def katConstants : List (List Nat) := [
  [0x2c4c51fd1bb9567c27e99f5712b49e0574178b41b6f0a476cddc41d242cf2b43,
   0x1c5f8d18acb9c61ec6fcbfcda5356f1b3fdee7dc22c99a5b73a2750e5b054104,
   0x2d3c1988b4541e4c045595b8d574e98a7c2820314a82e67a4e380f1c4541ba90],
  [0x52547dc9e6d936cab6680372f1734c39f490d0cb970e2077c82f7e4172943d3,
   0x29d967f4002adcbb5a6037d644d36db91f591b088f69d9b4257694f5f9456bc2,
   0x350084b8305b91c426c25aeeecafc83fc5feec44b9636cb3b17d2121ec5b88a],
  [0x1815d1e52a8196127530cc1e79f07a0ccd815fb5d94d070631f89f6c724d4cbe,
   0x17b5ba882530af5d70466e2b434b0ccb15b7a8c0138d64455281e7724a066272,
   0x1c859b60226b443767b73cd1b08823620de310bc49ea48662626014cea449aee],
  [0x1b26e7f0ac7dd8b64c2f7a1904c958bb48d2635478a90d926f5ff2364effab37,
   0x2da7f36850e6c377bdcdd380efd9e7c419555d3062b0997952dfbe5c54b1a22e,
   0x17803c56450e74bc6c7ff97275390c017f682db11f3f4ca6e1f714efdfb9bd66],
  [0x15ce7e5ae220e8623a40b3a3b22d441eff0c9be1ae1d32f1b777af84eea7e38c,
   0x1bf60ac8bfff0f631983c93e218ca0d4a4059c254b4299b1d9984a07edccfaf0,
   0xfab0c9387cb2bec9dc11b2951088b9e1e1d2978542fc131f74a8f8fdac95b40],
  [0x7d085a48750738019784663bccd460656dc62c1b18964a0d27a5bd0c27ee453,
   0x10d57b1fad99da9d3fe16cf7f5dae05be844f67b2e7db3472a2e96e167578bc4,
   0xc36c40f7bd1934b7d5525031467aa39aeaea461996a70eda5a2a704e1733bb0],
  [0xe4b65a0f3e1f9d3166a2145063c999bd08a4679676d765f4d11f97ed5c080ae,
   0x1ce5561061120d5c7ea09da2528c4c041b9ad0f05d655f38b10d79878b69f29d,
   0x2d323f651c3da8f0e0754391a10fa111b25dfa00471edf5493c44dfc3f28add6],
  [0x5a0741ee5bdc3e099fd6bdad9a0865bc9ceecd13ea4e702e536dd370b8f1953,
   0x176a2ec4746fc0e0eca9e5e11d6facaee05524a92e5785c8b8161780a4435136,
   0x691faf0f42a9ed97629b1ae0dc7f1b019c06dd852cb6efe57f7eeb1aa865aef],
  [0xe46cf138dad09d61b9a7cab95a23b5c8cb276874f3715598bacb55d5ad271de,
   0xf18c3d95bac1ac424160d240cdffc2c44f7b6315ba65ed3ff2eff5b3e48b4f2,
   0x2eea6af14b592ec45a4119ac1e6e6f0312ecd090a096e340d472283e543ddff7],
  [0x6b0d7a8f4ce97d049ae994139f5f71dca4899d4f1cd3dd83a32a89a58c0a8e6,
   0x19df0b9828eed5892dd55c1ad6408196f6293d600ef4491703a1b37e119ba8e,
   0x8ca5e3c93817cdb1c2b2a12d02c779d74c1bb12b6668f3ab3ddd7837f3a4a00],
  [0x28382d747e3fd6cb2e0d8e8edd79c5313eed307a3517c11046245b1476e4f701,
   0xca89aecd5675b77c8271765da98cfcb6875b3053d4742c9ff502861bd16ad28,
   0x19046bc0b03ca90802ec83f212001e7ffd7f9224cfffae523451deb52eab3787],
  [0x36fd7dfa1c05110b3428e6abcc43e1de9abba915320c4a600f843bfb676ca51,
   0x8f0a7abcb1a2f6595a9b7380c5028e3999db4fe5cb21892e5bb5cb11a7757ba,
   0xb614acc1ce3fbe9048f8385e4ee24c3843deea186bacea3c904c9f6340ad8cb],
  [0xb2d98c5d988f9b41f2c98e017fc954a6ae423b2261575941f8eac8835d985c,
   0x1457f18555b7973ba5b311d57ec5d77e936980b97f5973875f1f7cc765a4fc95,
   0x2b453debc1bee525cb751bc10641a6b86f847d696418cf1144950982591bfa],
  [0xc2af1abcc6ece77218315d2af445ccbfc6647b7af2510682882cc792c6bb8cf,
   0xe2825d9eb84b59902a1adb49ac0c2c291dee7c45d2e8c30369a4d595039e8ad,
   0x297e2e86a8c672d39f3343b8dfce7a6f20f3571bfd5c8a28e3905aa2dcfeca44],
  [0xd397281d902e49ec6504ba9186e806db9ad4fc8f86e7277aa7f1467eb6f9de,
   0x2fb7c89c372d7e2050e7377ed471000c73544a2b9fd66557f3577c09cac98b4b,
   0x16125247be4387a8c3e62490167f0cffdba02eda4f018d0b40639a13bb0cfef9],
  [0x2291fd9d442f2d9b97ab22f7d4d52c2a82e41f852cf620b144612650a39e26e8,
   0x1eec61f16a275ae238540feaeeadfec56d32171b1cc393729d06f37f476fde71,
   0x259ce871ba5dacbb48d8aed3d8513eef51558dc0b360f28c1a15dbfc5e7f6ca2],
  [0x2d3376a14ddbf95587e2f7567ff04fe13a3c7cb17363c8b9c5dd1d9262a210cb,
   0x13b843d9f65f4cddd7ce10d9cad9b8b99ac5e9a8c4269288173a91c0f3c3b084,
   0xb52e9b2f1aa9fd204e4a42c481cc76c704783e34114b8e93e026a50fa9764e8],
  [0x1fd083229276c7f27d3ad941476b394ff37bd44d3a1e9caca1400d9077a2056c,
   0x22743c328a6283f3ba7379af22c684c498568fd7ad9fad5151368c913197cbd9,
   0x43007aefd9741070d95caaaba0c1b070e4eec8eef8c1e512c8e579c6ed64f76],
  [0x17ab175144f64bc843074f6b3a0c57c5dd2c954af8723c029ee642539496a7b3,
   0x2befcad3d53fba5eeef8cae9668fed5c1e9e596a46e8458e218f7a665fddf4eb,
   0x15151c4116d97de74bfa6ca3178f73c8fe8fe612c70c6f85a7a1551942cb71cc],
  [0x2ac40bf6c3176300a6835d5fc7cc4fd5e5d299fb1baa86487268ec1b9eedfa97,
   0xf151de1f01b4e24ffe04279318f0a68efabb485188f191e37e6915ff6059f6e,
   0x2e43dffc34537535182aebac1ad7bf0a5533b88f65f9652f0ad584e2ffc4dd1f],
  [0x2ebabc2c37ef53d8b13b24a2a2b729d536735f58956125a3876da0664c2442d7,
   0xdc3beceb34e49f5ad7226dd202c5cf879dffcc9a6dd32a300e8f2a4b59edf03,
   0x2f1ddeccce83adf68779c53b639871a8f81d4d00aefe1e812efce8ec999d457d],
  [0x1f63e41280ff5c021715d52b19780298ed8bd3d5eb506316b527e24149d4d4f1,
   0x1b8c1252a5888f8cb2672effb5df49c633d3fd7183271488a1c40d0f88e7636e,
   0xf45697130f5498e2940568ef0d5e9e16b1095a6cdbb6411df20a973c605e70b],
  [0x780ccc403cdd68983acbd34cda41cacfb2cf911a93076bc25587b4b0aed4929,
   0x238d26ca97c691591e929f32199a643550f325f23a85d420080b289d7cecc9d4,
   0x25672a14b5d085e31a30a7e1d5675ebfab034fb04dc2ec5e544887523f98dede],
  [0xcf702434b891e1b2f1d71883506d68cdb1be36fa125674a3019647b3a98accd,
   0x1837e75235ff5d112a5eddf7a4939448748339e7b5f2de683cf0c0ae98bdfbb3,
   0x1cd8a14cff3a61f04197a083c6485581a7d836941f6832704837a24b2d15613a],
  [0x266f6d85be0cef2ece525ba6a54b647ff789785069882772e6cac8131eecc1e4,
   0x538fde2183c3f5833ecd9e07edf30fe977d28dd6f246d7960889d9928b506b3,
   0x7a0693ff41476abb4664f3442596aa8399fdccf245d65882fce9a37c268aa04],
  [0x11eb49b07d33de2bd60ea68e7f652beda15644ed7855ee5a45763b576d216e8e,
   0x8f8887da6ce51a8c06041f64e22697895f34bacb8c0a39ec12bf597f7c67cfc,
   0x2a912ec610191eb7662f86a52cc64c0122bd5ba762e1db8da79b5949fdd38092],
  [0x2031d7fd91b80857aa1fef64e23cfad9a9ba8fe8c8d09de92b1edb592a44c290,
   0xf81ebce43c47711751fa64d6c007221016d485641c28c507d04fd3dc7fba1d2,
   0x1895b132a3b4f63a890e7601f503e47bfdc628dd4b8cca01235a911a07cf9a2c],
  [0xf4cc60a74968fb6cd9dfa2dfbc57566bbc14e83c4526cd49b73e00a98a579e3,
   0x18ad9810bf5492aa178f4f98caacd49b09d65e8acacaded9a44d4ef635cbd6e4,
   0x2fb86e1c59d3e3c8d68f7a6e1bdb8be0c415943769425a2664b9faeff11c08e7],
  [0x21a2e70e3aeb0a9753b0bc45c4617b5ea35933800d5625a7c3f587c0fd46225b,
   0x1e56b7129334869a077ba9ca1ff25d652f38a8fc491a3313196e0f2687325cf6,
   0xd158e4e51d1141c3392b38c56576e055530ba135ea13d7de98bfbe34d3ae076],
  [0x22a9bd68e514c0e62df12ba41922ce3ed0721f36f4ac0eed02315060a6eb136f,
   0x121353809a89b1e2226ac1bf9ec3b52d615fcfe16a017c0a3815dc7dea77ab2d,
   0x12f508bf199c0f08e5a4abe3f7c3aff9958077d67e241f02ffc7a03878015935],
  [0x1823c63a24cf440cdd790ef1d4658d1f527fb87b9114bcf979286453de741db1,
   0x5993ec9bf1729a1fd607be2f32c176d2a3eb6d9b5a8a4bcfc907bad2e961d90,
   0x1426db8c925f3b18285df0c8f4a4eebdc14b3f9dbcd13fa858a6141d754e21cf],
  [0x156d2369ef6646f3c41e8b4fa08db801564dd205f98f560a033d5347f210a542,
   0x162bdc3da8fa6d6408d30ba48b8ee9de16775e0d5adbe4c61d8e1744746eee75,
   0x64cdd0b4261ecafa482ad6aa0382df4b2817209531e2d0fa99785170593989d],
  [0x2e055038d66b07373afed9c641b7504c4d68e8c21b50a825f3dd08799252b4c2,
   0x801a52ec8cfd81e14847a115d6d33122ccc936b5a43d2a1147e040026e29697,
   0x178768fc8ec4846dd5bf245d78c2cf4838ed2d8023fcc2151d29896924f74e5d],
  [0x2797831f66a3c1fa974a44f8c2ccb9e039cd151ee075ba02ca63fb0cd329985b,
   0x14387cd44915795eb1fbedebbfdb93f63f02a2cd276bb67fbd5c873eec9065f2,
   0x1da345bd89bd33183e4d7093140eeccffe8d1bc41a1e177df9fd5467d0e7d7b6],
  [0xba87f92d95adc8e79e1728694388c593dfc1fd016a588a93591eb3c3e60dd76,
   0x2cfbf314cedb2fe474f22346e0dd45c3aec0f33fa5dbcd5cbc57a60500a715cb,
   0x1b364bbadc072df4f13872ef9771b90ad59bd74cec44a761ee745850c6633dc6],
  [0x17cff638b87d9810bfb46210bfbbb036158152f931ad83ecc382fe65aae696b8,
   0x73488c84affc730638584a226b5ad1fe791077b7a0ac57164c80221a087b76f,
   0x1e0eda30cf0396542488e1515438ba49f9e6eab63560d0c1a78964f687e44c0a],
  [0x1e42662c197192cd8c04ef4909cfcd371405f4c23221783ba811befc0adef0b5,
   0x9dc7e99f0a7ff4cb6cde1ac8059e8e599efa23e87d5e1b1aa051ec1b8673ee0,
   0x208a5c313767dcd083af4f4b0077465aa8bf51ca766a52b701318265b36bdf0],
  [0x2b3a13ff0e76f109add82bfb3d8da4eb10b0498732f110ef533bcd1bd214fbda,
   0x169f313650451e8755f73ff6a4a049287958f167aa56325191e51f4c911eb333,
   0x2a3a61c8338d913ca3d4b15635d6592b43f5eff803de5343e060d651bb081b5f],
  [0x263e40919b33e3e38cbedcbfc3759568a76a3ab971090dec155207b5a4aaee99,
   0x15c193fd18079eedd899b8961ed7ed3a6c1e65d40d5bef5a0ba7fce61316166b,
   0x1b305d273cb349967eea11e115c8d82b1a7c6c02c7a1605a75093c90308681b4],
  [0x221363a451b9679b3a8b6da9d9bf298b9e749d7e1993ca72dc96125a4446673b,
   0x98c99ee98eda1ed7e794827b72eb58366ab9d3dde34a682617bdbf6d90c543e,
   0x28384acbea0706585c9d4b23dd47de166e8a9b5ebc2a5f2c8ee2f5c8456c6604],
  [0xcb7bee531d5074fd51e4d1ad633f3636731b9b130c159c6fd07657a688de6cb,
   0x2a8421c4ae026946e5a5fd8c228e9da35845eba29beb3756c0de87c17a1bf36f,
   0x4fabca66fb4576aa98ddea1874005b091272cd9f0135b6d9bd4b74486c1dda4],
  [0x140fa9c0ceb18fc1309fa24fcb6befad9b9506fbb2304528e1178e2a156024e1,
   0xe55bba52f294d8d4b63f8655e25c06d1c22f04347757f866c38dd2112fbea80,
   0x168938c381904c988edb76fa65846cca5a6e528e68c3a021739e194911a118c],
  [0x119a0fe5af6bed80c13dec6ef3bf01ded7078a607d3a675079bcfc3d2f2c8b63,
   0x2715e1a3557ea2593e6365e7dad136c46688f9fd73d13d1f6e1b76ac34625020,
   0x1455ea995894243e2fba16d6c53b0f4b3a1a0adf4f1219e432e97775b7e943b],
  [0x7e37b7a4276c471bd94b3206532bbe2ce0949f05dea0e37d22d244e51bb1476,
   0x76527a3458ab318d769d7aca309290d4d300f201beb7ae690d1c27b6fd37ef,
   0x866d13b35f28acd32b0cdd1240fbbd55e46a767cf7e7f1eb5ee4d81a07b4270],
  [0x80ba85ae5fe184cd6613b573a00146898d1f13f12c709f5d8d7aae2b61163ed,
   0x146177a1f732ddf4ce2a6e68f07c81f18163ec5f79777825c98af60e810ad7cf,
   0x1301327374bf094a1ae0c5e6015b01826871bda162e98ebe24d5ec8b1e953e27],
  [0xb6a90037dc3ba2988374daf11659814cdbc172ec54f6cfe3b2a7894d3cb10a,
   0xf95d96cab4c663b590f81d2622c408ff04b446c1ec387f4202bdd1dab9a5253,
   0x2cc3466fdf581e61a0c0f3d80af78a544db848ad07ff07765c4b8e378dc7cf9c],
  [0x2cd50209809a87951695bef1441b46b50b92d9095e0b206f75c7dbf5b56f0be7,
   0x3a838c99298c583f2ec916459f901bd12a55d1d0bc905eff1bbffa9f67b324c,
   0xd1a41d85414026e49e9eb8b295b225b4590383752fbfb26a2f4ddcecb7b0551],
  [0x15b2e5cf31397844f17c4e962fa08ec7b63f5ed6f183b2cf0c102012d248d463,
   0x2db14f8dd7f05774f3b74e08e46bdc541747f354fc06438891718434548fff22,
   0x21ff30ef7d57d5510cc53eb96e8df272f6dafff9fb01c718f0f148208d301ee2],
  [0x2acb22e3a439d4bcb157e9d5113da76bd8ab76d5c5551b6b87250b70dc77f0fa,
   0x1ae5ec3bef630782f745bc17d9c5af74062d30e7410a8c29764de2c67f6ddf25,
   0x296180deac9cc3a506c20409307e509aab62f8939db075ea0b86a6d47a466c07],
  [0xb818d8dbd96b5a65db2d7490dc7a539fef138ba219a0f87e7b12154b59d66bb,
   0x2bbcb71354c134d81f459e15b6d37b385546e4d476770229d59933d2df2e4889,
   0x237376a5dc4be2bfd24a8d50607732464ab0fac97725d32604c9e278a80f1b63],
  [0x20c2c8241dc9c5b01f038295f616c61a01571a0c5bfda85d51741fc5662a5849,
   0x272b0f38b3a9e03cbef637d66a194ec70b326b82539e68b98b6c16f99059777c,
   0x2cefa41818d6d44c1facd62f1c1d8e2d49d4df4d95893b28453fade3256f790c],
  [0x77fe3662b5afabd93b294c7e687b90d2f704c8ec344ee966107667f0058e0ee,
   0x2af4041a82ea2f300f00f29a19558634347d75f9123309e2f088e06c3bb9bd09,
   0x1b2436cc7b5a5f481082fd81356862e63ba8c94252933ecc5dd8632bc73c39ab],
  [0x5b86e958b85092efd6a61f8e108ec0d69e3931aa04273ae6d0643bd80d75544,
   0x2180b22145d8052ebc24124aeba7d5e277d8be1fd0b1451ac866173816e1874a,
   0x222929ecb0627dfc46ce748294f4e5df6542b3fca0c2acb994ec39436be08dae],
  [0x10a5613d17f5899c1f9abe34e7c808845d7db54ea0361f64f791d9d860ff1e3a,
   0x187c1d0f3389d3b520be8314b0c99c1275b2e3bc7198845535855e140f4197df,
   0x1c387b065ec4130c93bc6afe20905270c529d627fbd65bf8dfb91be0fbb0c110],
  [0x1cd5e0fa7c635fe564ad8fc40b9526debc659aba951b1d13ae1a57b020731a8a,
   0x237813d540a15c5217b34afa84343cba7af5adf5a8de983f21d89687b860aee5,
   0x1507d35ed7c120fa091ecc3bba06945d686805c0ffa078d74051fc5003a10c53],
  [0x3a454b022ed70ebb889a9829933f2ba76ffa284ae65c56a74145470c0fd61cf,
   0x2fff39c19a99cf5dff2258d8ebd3174652ebde16229e1c34bfa201c6e0ad3dca,
   0x30077ea39cffd94fc40eded4e644f8c1bcae61a69b34a653476bdc8d10598c0a],
  [0x420d44e7a70ef517032a8e4b0c195b011781f4f663353c4e847e5034f5162cd,
   0x11a8e3cf79594bff6647ba0e0fa0939881da87564a050bb14bdeecb46b68816b,
   0xe750e70034ce9d61cbfb67885e065ba1bf11e0b26616a15095ee630d84283b0],
  [0x137c5f17f844bb82b74a94f76a244cd8fba41ac3dbaf8431b9b72d3f2184f30f,
   0x2dcbcf7fe405956e0169ad617833f89064a2dd939bfe41094570d1a0f1cb5560,
   0x28fd1ad9f8a0b21b5069de7671f6722b2eade816c68b755286e86d9a2851e42c],
  [0x270fb925857f7a32b893b2f18097046f96969dbee3647decb4eb1c4d053f2aef,
   0xbe2cc7ba258dc14f37fbf2c75eee26f3b446e66ad6a304529bbd1734156151b,
   0xaac30b0f866e18e40ce911e16aed6139d2677e3c62fe63db82d2dfb83c9c433],
  [0x1d8f552747d2943f67f00d77189df46d2ea9d0b41ff7f9263771a4a7f0925a97,
   0xf89d051618b173bbbedaf897d34ba25e7451004c83826659b630b90fec84140,
   0x1def8952f3409a8968a6ab88d5cf2faf1cdf54d5fc589e8bd5a4d60ca66c2773],
  [0x1cb8958c959ea40aef51dfc4b6fd2b82fcc2f1710c7903094d5076c89da0778b,
   0x1b8d491e14d40444d6a55dc387f49b5ff3189bb5688fef99cc358851017f9812,
   0x40ae35d3d711016dd4be1d648f2aff2075e96d9e27c0a0cb77c646e3600bbff],
  [0x8535646cdcc4053038be2973d97012bafc70407f1340fbcc1722c5f1fc83684,
   0x79aec758ee618d8f9cb7ff8a111897f939d10252cc2b8777c7265b184eb7403,
   0x2e01efc8df69089a62995832e321be5bace92b321202de25a01c5df8d26108d6],
  [0x1ccd6bd7c5c5ddbad822cc2155a55a633bf9cc04b510e6c38dc2d99ae2b4532d,
   0xdab1668d6f3339ca545f6fb560ddb88c8dbbed8ff5ba99dca9345212bd0d84b,
   0x1a8f8263346fa919c687811c83a30f299bcf03b69df110a6e72477c077545552],
  [0x24939b943e9841db4d9af6f20abf17834073732e899558703357e9b65be53283,
   0x1f9607d0121aa68b9bc38aed6f78d8ac700f7ced5a47e9690529ee1b52a21972,
   0x88e9dfa8d0617d6f53073e7a8a6ea2b8af78820b9cfb17b3672c7cfc18560e9]]

/-- soroban-env-host/src/test/poseidon/poseidon2_instance_bn254.rs `RC3` -/
def katConstants2 : List (List Nat) := [
  [0x1d066a255517b7fd8bddd3a93f7804ef7f8fcde48bb4c37a59a09a1a97052816,
   0x29daefb55f6f2dc6ac3f089cebcc6120b7c6fef31367b68eb7238547d32c1610,
   0x1f2cb1624a78ee001ecbd88ad959d7012572d76f08ec5c4f9e8b7ad7b0b4e1d1],
  [0xaad2e79f15735f2bd77c0ed3d14aa27b11f092a53bbc6e1db0672ded84f31e5,
   0x2252624f8617738cd6f661dd4094375f37028a98f1dece66091ccf1595b43f28,
   0x1a24913a928b38485a65a84a291da1ff91c20626524b2b87d49f4f2c9018d735],
  [0x22fc468f1759b74d7bfc427b5f11ebb10a41515ddff497b14fd6dae1508fc47a,
   0x1059ca787f1f89ed9cd026e9c9ca107ae61956ff0b4121d5efd65515617f6e4d,
   0x2be9473358461d8f61f3536d877de982123011f0bf6f155a45cbbfae8b981ce],
  [0xec96c8e32962d462778a749c82ed623aba9b669ac5b8736a1ff3a441a5084a4,
   0x292f906e073677405442d9553c45fa3f5a47a7cdb8c99f9648fb2e4d814df57e,
   0x274982444157b86726c11b9a0f5e39a5cc611160a394ea460c63f0b2ffe5657e],
  [0x1a1d063e54b1e764b63e1855bff015b8cedd192f47308731499573f23597d4b5,
   0x0,
   0x0],
  [0x26abc66f3fdf8e68839d10956259063708235dccc1aa3793b91b002c5b257c37,
   0x0,
   0x0],
  [0xc7c64a9d887385381a578cfed5aed370754427aabca92a70b3c2b12ff4d7be8,
   0x0,
   0x0],
  [0x1cf5998769e9fab79e17f0b6d08b2d1eba2ebac30dc386b0edd383831354b495,
   0x0,
   0x0],
  [0xf5e3a8566be31b7564ca60461e9e08b19828764a9669bc17aba0b97e66b0109,
   0x0,
   0x0],
  [0x18df6a9d19ea90d895e60e4db0794a01f359a53a180b7d4b42bf3d7a531c976e,
   0x0,
   0x0],
  [0x4f7bf2c5c0538ac6e4b782c3c6e601ad0ea1d3a3b9d25ef4e324055fa3123dc,
   0x0,
   0x0],
  [0x29c76ce22255206e3c40058523748531e770c0584aa2328ce55d54628b89ebe6,
   0x0,
   0x0],
  [0x198d425a45b78e85c053659ab4347f5d65b1b8e9c6108dbe00e0e945dbc5ff15,
   0x0,
   0x0],
  [0x25ee27ab6296cd5e6af3cc79c598a1daa7ff7f6878b3c49d49d3a9a90c3fdf74,
   0x0,
   0x0],
  [0x138ea8e0af41a1e024561001c0b6eb1505845d7d0c55b1b2c0f88687a96d1381,
   0x0,
   0x0],
  [0x306197fb3fab671ef6e7c2cba2eefd0e42851b5b9811f2ca4013370a01d95687,
   0x0,
   0x0],
  [0x1a0c7d52dc32a4432b66f0b4894d4f1a21db7565e5b4250486419eaf00e8f620,
   0x0,
   0x0],
  [0x2b46b418de80915f3ff86a8e5c8bdfccebfbe5f55163cd6caa52997da2c54a9f,
   0x0,
   0x0],
  [0x12d3e0dc0085873701f8b777b9673af9613a1af5db48e05bfb46e312b5829f64,
   0x0,
   0x0],
  [0x263390cf74dc3a8870f5002ed21d089ffb2bf768230f648dba338a5cb19b3a1f,
   0x0,
   0x0],
  [0xa14f33a5fe668a60ac884b4ca607ad0f8abb5af40f96f1d7d543db52b003dcd,
   0x0,
   0x0],
  [0x28ead9c586513eab1a5e86509d68b2da27be3a4f01171a1dd847df829bc683b9,
   0x0,
   0x0],
  [0x1c6ab1c328c3c6430972031f1bdb2ac9888f0ea1abe71cffea16cda6e1a7416c,
   0x0,
   0x0],
  [0x1fc7e71bc0b819792b2500239f7f8de04f6decd608cb98a932346015c5b42c94,
   0x0,
   0x0],
  [0x3e107eb3a42b2ece380e0d860298f17c0c1e197c952650ee6dd85b93a0ddaa8,
   0x0,
   0x0],
  [0x2d354a251f381a4669c0d52bf88b772c46452ca57c08697f454505f6941d78cd,
   0x0,
   0x0],
  [0x94af88ab05d94baf687ef14bc566d1c522551d61606eda3d14b4606826f794b,
   0x0,
   0x0],
  [0x19705b783bf3d2dc19bcaeabf02f8ca5e1ab5b6f2e3195a9d52b2d249d1396f7,
   0x0,
   0x0],
  [0x9bf4acc3a8bce3f1fcc33fee54fc5b28723b16b7d740a3e60cef6852271200e,
   0x0,
   0x0],
  [0x1803f8200db6013c50f83c0c8fab62843413732f301f7058543a073f3f3b5e4e,
   0x0,
   0x0],
  [0xf80afb5046244de30595b160b8d1f38bf6fb02d4454c0add41f7fef2faf3e5c,
   0x0,
   0x0],
  [0x126ee1f8504f15c3d77f0088c1cfc964abcfcf643f4a6fea7dc3f98219529d78,
   0x0,
   0x0],
  [0x23c203d10cfcc60f69bfb3d919552ca10ffb4ee63175ddf8ef86f991d7d0a591,
   0x0,
   0x0],
  [0x2a2ae15d8b143709ec0d09705fa3a6303dec1ee4eec2cf747c5a339f7744fb94,
   0x0,
   0x0],
  [0x7b60dee586ed6ef47e5c381ab6343ecc3d3b3006cb461bbb6b5d89081970b2b,
   0x0,
   0x0],
  [0x27316b559be3edfd885d95c494c1ae3d8a98a320baa7d152132cfe583c9311bd,
   0x0,
   0x0],
  [0x1d5c49ba157c32b8d8937cb2d3f84311ef834cc2a743ed662f5f9af0c0342e76,
   0x0,
   0x0],
  [0x2f8b124e78163b2f332774e0b850b5ec09c01bf6979938f67c24bd5940968488,
   0x0,
   0x0],
  [0x1e6843a5457416b6dc5b7aa09a9ce21b1d4cba6554e51d84665f75260113b3d5,
   0x0,
   0x0],
  [0x11cdf00a35f650c55fca25c9929c8ad9a68daf9ac6a189ab1f5bc79f21641d4b,
   0x0,
   0x0],
  [0x21632de3d3bbc5e42ef36e588158d6d4608b2815c77355b7e82b5b9b7eb560bc,
   0x0,
   0x0],
  [0xde625758452efbd97b27025fbd245e0255ae48ef2a329e449d7b5c51c18498a,
   0x0,
   0x0],
  [0x2ad253c053e75213e2febfd4d976cc01dd9e1e1c6f0fb6b09b09546ba0838098,
   0x0,
   0x0],
  [0x1d6b169ed63872dc6ec7681ec39b3be93dd49cdd13c813b7d35702e38d60b077,
   0x0,
   0x0],
  [0x1660b740a143664bb9127c4941b67fed0be3ea70a24d5568c3a54e706cfef7fe,
   0x0,
   0x0],
  [0x65a92d1de81f34114f4ca2deef76e0ceacdddb12cf879096a29f10376ccbfe,
   0x0,
   0x0],
  [0x1f11f065202535987367f823da7d672c353ebe2ccbc4869bcf30d50a5871040d,
   0x0,
   0x0],
  [0x26596f5c5dd5a5d1b437ce7b14a2c3dd3bd1d1a39b6759ba110852d17df0693e,
   0x0,
   0x0],
  [0x16f49bc727e45a2f7bf3056efcf8b6d38539c4163a5f1e706743db15af91860f,
   0x0,
   0x0],
  [0x1abe1deb45b3e3119954175efb331bf4568feaf7ea8b3dc5e1a4e7438dd39e5f,
   0x0,
   0x0],
  [0xe426ccab66984d1d8993a74ca548b779f5db92aaec5f102020d34aea15fba59,
   0x0,
   0x0],
  [0xe7c30c2e2e8957f4933bd1942053f1f0071684b902d534fa841924303f6a6c6,
   0x0,
   0x0],
  [0x812a017ca92cf0a1622708fc7edff1d6166ded6e3528ead4c76e1f31d3fc69d,
   0x0,
   0x0],
  [0x21a5ade3df2bc1b5bba949d1db96040068afe5026edd7a9c2e276b47cf010d54,
   0x0,
   0x0],
  [0x1f3035463816c84ad711bf1a058c6c6bd101945f50e5afe72b1a5233f8749ce,
   0x0,
   0x0],
  [0xb115572f038c0e2028c2aafc2d06a5e8bf2f9398dbd0fdf4dcaa82b0f0c1c8b,
   0x0,
   0x0],
  [0x1c38ec0b99b62fd4f0ef255543f50d2e27fc24db42bc910a3460613b6ef59e2f,
   0x0,
   0x0],
  [0x1c89c6d9666272e8425c3ff1f4ac737b2f5d314606a297d4b1d0b254d880c53e,
   0x0,
   0x0],
  [0x3326e643580356bf6d44008ae4c042a21ad4880097a5eb38b71e2311bb88f8f,
   0x0,
   0x0],
  [0x268076b0054fb73f67cee9ea0e51e3ad50f27a6434b5dceb5bdde2299910a4c9,
   0x0,
   0x0],
  [0x1acd63c67fbc9ab1626ed93491bda32e5da18ea9d8e4f10178d04aa6f8747ad0,
   0x19f8a5d670e8ab66c4e3144be58ef6901bf93375e2323ec3ca8c86cd2a28b5a5,
   0x1c0dc443519ad7a86efa40d2df10a011068193ea51f6c92ae1cfbb5f7b9b6893],
  [0x14b39e7aa4068dbe50fe7190e421dc19fbeab33cb4f6a2c4180e4c3224987d3d,
   0x1d449b71bd826ec58f28c63ea6c561b7b820fc519f01f021afb1e35e28b0795e,
   0x1ea2c9a89baaddbb60fa97fe60fe9d8e89de141689d1252276524dc0a9e987fc],
  [0x478d66d43535a8cb57e9c1c3d6a2bd7591f9a46a0e9c058134d5cefdb3c7ff1,
   0x19272db71eece6a6f608f3b2717f9cd2662e26ad86c400b21cde5e4a7b00bebe,
   0x14226537335cab33c749c746f09208abb2dd1bd66a87ef75039be846af134166],
  [0x1fd6af15956294f9dfe38c0d976a088b21c21e4a1c2e823f912f44961f9a9ce,
   0x18e5abedd626ec307bca190b8b2cab1aaee2e62ed229ba5a5ad8518d4e5f2a57,
   0xfc1bbceba0590f5abbdffa6d3b35e3297c021a3a409926d0e2d54dc1c84fda6]]

/-- The known answer of Poseidon. -/
theorem kat_poseidon : poseidonPermutation [some 0, some 1, some 2] .bn254 3 5 8 56 (katMds.map numRow) (katConstants.map numRow) = .ok [
    0x2677d68d9cfa91f197bf5148b50afac461b6b8340ff119a5217794770baade5f,
    0x21ae9d716173496b62c76ad7deb4654961f64334441bcf77e17a047155a3239f,
    0x008f8e7c73ff20b6a141c48cef73215860acc749b14f0a7887f74950215169c6] := of_gives (by decide +kernel)

/-- The known answer of Poseidon2. -/
theorem kat_poseidon2 : poseidon2Permutation [some 0, some 1, some 2] .bn254 3 5 8 56 [some 1, some 1, some 2]
    (katConstants2.map numRow) = .ok [
    0x0bb61d24daca55eebcb1929a82650f328134334da98ea4f847f760054f4a3033,
    0x303b6f7c86d043bfcbcc80214f26a30277a15d3f74ca654992defe7ff8d03570,
    0x1ed25194542b12eef8617361c3ba7c52e660b145994427cc86296242cf766ec8] := of_gives (by decide +kernel)

/-- The matrix of that instance is invertible. -/
theorem kat_det : IsUnit (mat 3 (katMds.map (residues bnR))).det := by
  rw [isUnit_iff_ne_zero, Matrix.det_fin_three]
  decide +kernel

/-- So there is exactly one input that gives zeros. -/
example : ∃! xs, Canon bnR 3 xs ∧
    poseidonPermutation (xs.map some) .bn254 3 5 8 56 (katMds.map numRow) (katConstants.map numRow) = .ok [0, 0, 0] :=
  C69_permutes .bn254 bnR 3 5 8 56 _ _ katMds _ (by decide +kernel) kat_det kat_poseidon [0, 0, 0] (by
    refine ⟨rfl, ?_⟩
    intro n hn
    have : n = 0 := by simpa using hn
    subst this
    decide +kernel)

example : ∃! xs, Canon bnR 3 xs ∧
    poseidon2Permutation (xs.map some) .bn254 3 5 8 56 ([1, 1, 2].map some) (katConstants2.map numRow) = .ok [0, 0, 0] :=
  C69_permutes2 .bn254 bnR 3 5 8 56 _ _ [1, 1, 2] _ (by decide +kernel) (.inr (.inl rfl)) kat_poseidon2 [0, 0, 0] (by
    refine ⟨rfl, ?_⟩
    intro n hn
    have : n = 0 := by simpa using hn
    subst this
    decide +kernel)

/-- A size at which the diagonal is used, with constants of partial rounds cut to their first element. -/
theorem eight_poseidon2 : poseidon2Permutation ([1, 2, 3, 4, 5, 6, 7, 8].map some) .bls12_381 8 5 2 1 ([3, 1, 4, 1, 5, 9, 2, 6].map some)
    [numRow [0, 1, 2, 3, 4, 5, 6, 7], numRow [1], numRow [7, 6, 5, 4, 3, 2, 1, 0]] = .ok [
    50982126772421340961392628356842797891960113437328044310548154144122997534578,
    1958790756029933188109257726392874687026126089365114086640034312941533825008,
    25052977982020566217077138722099022048509466710928666282404721956913379298845,
    11546742545725391214864774598115350653123061191766669681349183584870547559119,
    51979919201996403498455226112459362424703721398860227203201792248270157345980,
    3285105639710957644834966747191478858073186552970772510272724008833646533795,
    33152727781512772837106104162122017469351122050136883350913686551445110657796,
    43794435569419578644259018585809189912978758559596033599446949282131066987546] := of_gives (by decide +kernel)

/-- With another diagonal than the documented one the answer is the same. -/
example : poseidon2Permutation [some 0, some 1, some 2] .bn254 3 5 8 56 ([77, 0, 5].map some) (katConstants2.map numRow) = .ok [
    0x0bb61d24daca55eebcb1929a82650f328134334da98ea4f847f760054f4a3033,
    0x303b6f7c86d043bfcbcc80214f26a30277a15d3f74ca654992defe7ff8d03570,
    0x1ed25194542b12eef8617361c3ba7c52e660b145994427cc86296242cf766ec8] :=
  C69_diagonal_ignored .bn254 _ 3 5 8 56 [1, 1, 2] [77, 0, 5] _ (.inr rfl) rfl _ kat_poseidon2

end Soroban.Props
