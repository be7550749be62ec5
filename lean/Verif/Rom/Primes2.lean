import Verif.Rom.Primes
import Verif.Common.Ecpp
/-
Primality of the remaining moduli and group orders, and of the large prime factor of the order of the BLS12-381 twist, by chains of
elliptic-curve certificates (generated by a script; the certificates are checked here by the kernel).
-/
namespace Verif.Rom

theorem prime_126446694221 : Nat.Prime 126446694221 :=
  pocklington _ [(378379, 2), (7, 2), (2, 2)] (.cons (by norm_num) (.cons (by norm_num) (.cons (by norm_num) .nil))) (by decide +kernel)

theorem prime_3791702900420000413 : Nat.Prime 3791702900420000413 :=
  pocklington _ [(126446694221, 2), (2, 2)] (.cons prime_126446694221 (.cons (by norm_num) .nil)) (by decide +kernel)

theorem prime_17759251 : Nat.Prime 17759251 :=
  pocklington _ [(5, 2), (5, 2), (5, 2), (3, 3), (3, 3), (3, 3), (2, 2)] (.cons (by norm_num) (.cons (by norm_num) (.cons (by norm_num) (.cons (by norm_num) (.cons (by norm_num) (.cons (by norm_num) (.cons (by norm_num) .nil))))))) (by decide +kernel)

theorem prime_177592511 : Nat.Prime 177592511 :=
  pocklington _ [(17759251, 2)] (.cons prime_17759251 .nil) (by decide +kernel)

theorem prime_12975716899585051 : Nat.Prime 12975716899585051 :=
  pocklington _ [(177592511, 2), (5, 2)] (.cons prime_177592511 (.cons (by norm_num) .nil)) (by decide +kernel)

theorem prime_6360833 : Nat.Prime 6360833 :=
  pocklington _ [(24847, 2), (2, 3), (2, 3), (2, 3), (2, 3), (2, 3), (2, 3), (2, 3)] (.cons (by norm_num) (.cons (by norm_num) (.cons (by norm_num) (.cons (by norm_num) (.cons (by norm_num) (.cons (by norm_num) (.cons (by norm_num) (.cons (by norm_num) .nil)))))))) (by decide +kernel)

theorem prime_10533539449 : Nat.Prime 10533539449 :=
  pocklington _ [(6360833, 2), (3, 2), (2, 7), (2, 7)] (.cons prime_6360833 (.cons (by norm_num) (.cons (by norm_num) (.cons (by norm_num) .nil)))) (by decide +kernel)

theorem prime_5459538862736011 : Nat.Prime 5459538862736011 :=
  pocklington _ [(66629, 2), (13, 2), (5, 2), (3, 2), (3, 2), (2, 2)] (.cons (by norm_num) (.cons (by norm_num) (.cons (by norm_num) (.cons (by norm_num) (.cons (by norm_num) (.cons (by norm_num) .nil)))))) (by decide +kernel)

theorem prime_959002529 : Nat.Prime 959002529 :=
  pocklington _ [(97, 2), (11, 2), (2, 3), (2, 3), (2, 3), (2, 3), (2, 3)] (.cons (by norm_num) (.cons (by norm_num) (.cons (by norm_num) (.cons (by norm_num) (.cons (by norm_num) (.cons (by norm_num) (.cons (by norm_num) .nil))))))) (by decide +kernel)

theorem prime_2857702866091231 : Nat.Prime 2857702866091231 :=
  pocklington _ [(959002529, 2)] (.cons prime_959002529 .nil) (by decide +kernel)

theorem prime_6004571 : Nat.Prime 6004571 :=
  pocklington _ [(13, 2), (13, 2), (11, 2), (2, 2)] (.cons (by norm_num) (.cons (by norm_num) (.cons (by norm_num) (.cons (by norm_num) .nil)))) (by decide +kernel)

theorem prime_3878964875143 : Nat.Prime 3878964875143 :=
  pocklington _ [(6004571, 2), (3, 3), (3, 3)] (.cons prime_6004571 (.cons (by norm_num) (.cons (by norm_num) .nil))) (by decide +kernel)

theorem prime_6167926532105383729 : Nat.Prime 6167926532105383729 :=
  pocklington _ [(3878964875143, 2), (2, 7), (2, 7), (2, 7)] (.cons prime_3878964875143 (.cons (by norm_num) (.cons (by norm_num) (.cons (by norm_num) .nil)))) (by decide +kernel)

theorem prime_2058202831 : Nat.Prime 2058202831 :=
  pocklington _ [(397, 2), (61, 2), (2, 3)] (.cons (by norm_num) (.cons (by norm_num) (.cons (by norm_num) .nil))) (by decide +kernel)

theorem prime_20018080734307 : Nat.Prime 20018080734307 :=
  pocklington _ [(2058202831, 2)] (.cons prime_2058202831 .nil) (by decide +kernel)

theorem prime_2283851618023 : Nat.Prime 2283851618023 :=
  pocklington _ [(59, 2), (37, 2), (19, 3), (13, 2), (3, 3)] (.cons (by norm_num) (.cons (by norm_num) (.cons (by norm_num) (.cons (by norm_num) (.cons (by norm_num) .nil))))) (by decide +kernel)

theorem prime_54536484570853 : Nat.Prime 54536484570853 :=
  pocklington _ [(4241, 2), (2857, 2), (2, 2)] (.cons (by norm_num) (.cons (by norm_num) (.cons (by norm_num) .nil))) (by decide +kernel)

theorem prime_4581064703951653 : Nat.Prime 4581064703951653 :=
  pocklington _ [(54536484570853, 2), (2, 2)] (.cons prime_54536484570853 (.cons (by norm_num) .nil)) (by decide +kernel)

/-- elliptic-curve certificates `(n, a, x, y)`, each reducing the primality of `n` to that of the next number -/
def h2_chain : List (Nat × Nat × Nat × Nat) := [
    (0x8d9f503deeeb5d5c423572788bea4d6ae0490c5afca1eeb2a9d75bb98b95878afab9c0da5cf222c377d87384d026cd73826d177200c0d3b1, 0x348a4adda8b9b8cbe63cfd23071a8bb2f972ca32d0097d888c54c71ad1a6d5548b747d3a4cc110e32f2ed143a8d4afbb4652b8a1d65a3ce6, 0x3a07fac6d4f748d82fc963e3f1da6091addb0cdc969a1edb0e5ffd27092cda04be52503841df65401eeb063d05f9aacb272e551242fbc49d, 0x53ff3ed46a193ee9ed94b5106a5b0d116842494bbabff81f3fe4e806255b2557bcde974ff61ace085195480c3361930a90f622d56f483e50),
    (0x3bac1999d0bc7c9eac4cecfc68cc703458e55428f5e3d168dd532801413bff2c74a63f2043447a026539866a186bccb3490b28431, 0x30f981a2f762844cbe4beb0153fc09d1410446b0dd3661f3e8275548f58fccfff91872e254be40fabc079641a7c77d85ed8580365, 0x2a79d62b26a49411c4a1d483a00c7b5c6e81d5ab6bf8d42bd413d2f598b9f3048a34964e1e4f73e0400e9b2aa22b70b98ddb2791a, 0x19a887922a270f125ac7d4ea086a389f3cc2d1ae3af57dbc2b1873018e98ee571daa6f497941fa724c942b891ce57bef4df6e45),
    (0x1ecc704f637a0ec5823838403616ef96e38f232dea4408fc51330d87748a56f1caa8045f023c559183ef0d857ce3dddc70989b55, 0x46631c58be0afffd31fe47c7ebc13801e83efba034e29572eceacd746d9231d0703dec44ad643b5490ac6c099d561265dc30c57, 0x11830f69e6c5acb22249962991f0bcf7afe2b9288d75795b2cc69bf489a438698cd32bd467902bfde8eb4bcd562a232471cb355c, 0x157ff79d3bb573b903f1ec5e403359d232e3dbcab205b62178040d694d4006df3ebb2273581f14aa5bffa3c66aba4e50df475db9),
    (0x51adbe86c5071882533f66c2737d1529c699c5e132f1a9e8a1d8ce8e249261943fe72995fbbfc2c9656cad4d6168b0ca35, 0x389058f94b58cdf0d240d72f70c1e1cdd10b7efe8b1ed1a7d9c14be5a4983f2d07629fbdd5ae7753c2079f7f0f5ea10960, 0x2437c44353a2a15e602a526b25672a1c5c21c9ca087bff94e636132455a151b3e02cda5e271fe0fb999f393a29091a3eee, 0x1420b9d2ee3348769a4fee525a4dd7540b85c5ec1f52f152a508b836da78413da533b274c6339d8efe411778c76b94a862),
    (0x2dfefb08695ad97a8eb1edbf545b64e9c369c7a6b5ddf86c96badcc98eb5ff55b70d9fd386fbec5793e1e607, 0x213d7a5a7158b216d270fb2057ee96e475fb937f2cbf48013395afdb8d9be78435f785c44c1e9cf180e0ca89, 0x24464be6db5800f66c7e7c29700e1e45b46f6065c4f8a35fa47c0a2ffb35841fcb9ffdf893c120178ef2332a, 0x29520d8bff1c0d842ce710214ebf43612dc38e7caaaf5dee17278844237604970930e9c359070e939cfc706d),
    (0x19c043232fa098e851d84fff309c0206bdf907467a23313c39bc10dcb3ced8b18b996936454fd3, 0x0, 0x132e72ed36779729b98fba2a2d6e1991b9f12faf283e7727217aad7d80ff78bfd235ed86dec6c6, 0x6997485f1c1d3acd97f487f6c51833d287c233d2ea63ef529dac382dd9a1e5d94898ee2cddcd0),
    (0x8956bb66535884d709d6fffbadeab5794a857c2442d58ff80cc22a1c05c20b6d968092f29fac1, 0x6ea6a0889ffc7ccabe54ba696455a34020b6bf04c59aa4c1e07a3148c9b91f8759edc565c5724, 0x85884dd6d84a7b8a1146de8144133af3ba009dda89106282c4e91c62c68f919a60c8662c9a29a, 0x754defc42fba5922d358a065be91a374394b0c83bdaf3a42b9caf2ec9316d175aca0e6552e5ff),
    (0x3ddf0ddbef0bdb8e639d0eaec134099bb0b9f7b3404afd6833658eede82f71df5c319, 0x0, 0x2ea5eedb15d84ab6e1959d44817797fe803d581da18256e1ca769c923b836002c7048, 0x2807e0056ff4bf9a5144337beb26e75fe675f4d14ead968fe0472fe8580b6bfd39e42),
    (0x2d202172757552179f71d1d1df53e6ea9fb4363765363cbaaf85a148033610ded4b, 0x12548906597a9f97a70665d0cc971acc91ee8a11bcb870f72cb54a31869d25f0412, 0xdb62b9af8ea789cfdbb4668a676d8c746ebd0950b24edc6c3b26a0f4eef7e9b0a5, 0x3435d8d88a2cbc5f28b26604f5f1ff88bd72e69730a32d0910a1c125ad7de6f06a),
    (0x179c6dadeb379f2f2be2095608b3ea7bea0993242cab4e0acc579ec7, 0x10cef12c67eab5129ac81ff1775b93b6f6bdb622297c6a0bec5dad39, 0x845faea3249cb3880f09f2b0929a108543b81272e957cd9601a8f3b, 0x7841e130579defa768d16920d35c8d2963626ed4e231cc45e585924),
    (0x1d333c33d775052cbbd5ff2dcced20edc9fce4f874009c2d094835, 0x15d43dec661c0b662e3554ade69f0dbdb8381b704bccaab99ca945, 0x15ad56abf2d167937701346e522294aeeda2c84263d759a3ea3f8a, 0x1a7a1f30829d0703138f14ff3ba3f84d3d99c650b3860e1ac0b4ba),
    (0x58a45e13075d97f4f54a65f96bce57e412d9f0a3e60b58229, 0x2f50586cf7de1b3cfa3e54720216fb6c722773666d11a4a84, 0x51b166464a6d3c4f1aa6cf174c2a2b69c5ff50c99a6da9893, 0x3bcb8bb8990f72cd6d0a06caf0cf5704ee57516ef59f970d),
    (0x10b885435ce4818535f84ffa622a56d8003bfa643b, 0x9b9b0c687024b555105fa45e047a5732f281c15b6, 0xc9c40f0acfc696a3f9bcd604795df5dfdb48e85, 0x2018e0c7b4434f89701408b782d4dbc10d5858598),
    (0x773df8c56f420188b9d35dc212f385fe3e09, 0x0, 0x57e97a777b70235c2adb063e79ff399707d2, 0x585938160ad85b206a52b787c35bd3d20786),
    (0xf1163c6bf2361df273a7, 0x0, 0x301533ddfe9ee00c2e35, 0x674507e4931bd31f1182)]

theorem bls381_h2_prime : Nat.Prime 402096035359507321594726366720466575392706800671181159425656785868777272553337714697862511267018014931937703598282857976535744623203249 :=
  Ecpp.chain_prime prime_3791702900420000413 h2_chain (by decide +kernel) _ (List.mem_cons_self (a := (402096035359507321594726366720466575392706800671181159425656785868777272553337714697862511267018014931937703598282857976535744623203249, 149172872954473139924956688557257384428001525969206060906378490660821320521400707145437448803120119604345778210273817807671034547682534, 164762897614038840308702345719709356324044128030959990996011345283397443469480358340987392116674889351004902830365616177253028149839005, 238485587701452368970421102217520243767038060680002469859557692757993429576285570377565578470400295378630034649152045301761599125077584)))

/-- elliptic-curve certificates `(n, a, x, y)`, each reducing the primality of `n` to that of the next number -/
def hifive_p_chain : List (Nat × Nat × Nat × Nat) := [
    (0xfffffffffffffffffffffffffffffffffffffffffffffffffffffffffffffffffffffffffffffffffffd, 0x0, 0x1527c2037a5797043380d01f4e97080c5ce79ecff2587032532e907bd74d82a76b870c62f5bedb05c011, 0x32fadde1cc1be6faae899a736ebffe03549d4c689eb7ba7969417aa241f18995a3dc4933c72ccb9c39ef),
    (0x3631551275b69fbe693282026e0f5a278c430b0a8b8eca937716111afaae4c5dbb57b2eb56257, 0x33f96b0a38017cc297caa39c877f012170106469ed24a45788aadf006cad26ceaab0ed7769134, 0x2dad77509435913c194a209eb24212f758bb5617f3e0ae092967d817255ba9731325ff94460d5, 0x1b3f2cfa3016a73a5f62b04f6ec740e50fb427963d5757d3a4ce3ece74fd9fd1414795f74a763),
    (0x23e780e8842f90844988da34f3592c9c290c0cc9ccc135092c23466b27c5c3ce828102b, 0x0, 0x1abb5acf05bf5df18c5ed95c8e3d228469ae6f195f78803c8f4f320db71762427018b26, 0xa4d739341af3d2760bfdb5b4faf016f699e00aea6e78fedffece94149cc2c694d671e9),
    (0xf37bc92052a331477536f224f67ea3803d69a90a4696b87ac22a5d6a6a42e5b700d9, 0x0, 0x4aa6ccd3b1aaa2651fa9d85c7b303956a6b375d15f02c46c8db5a28b0a610b311227, 0xc8cc988e61ec86a9dcdfa8430ab48030a16b7f21c629a0e138659420b8d9e464d002),
    (0x15cf00c9bcc92d8614ce261b084861391e939a971cc7f0216e0ed69f, 0x0, 0xae58f0bc815809f9c5bb45f74b3d590fc2e201c2126460073ea7c9c, 0x4520e43bba68db66246728492350b903968c25336ee07f5a4feaa18),
    (0xd3c1713c14f9899827d4f69b99f1c11e2a76f3a12974b7727d, 0x0, 0xbf5e941e301180578898d8dd6b463ca24bba1a6e7f20c893e8, 0x4104d9507d53ae3f199f6af8a7f1eee9fe09af306c7ad1b0f9),
    (0x1b9c788b985e25d79d778e715a1fe169666c18942ad8115, 0x0, 0x11f44d70e4620f6e7ebe56c7fbaaeeb76a7003628ae1d81, 0x13fe8c2834d703396bb1ae5f6c69c50d8c8cceccb9d41ff),
    (0x6c879c994f9f57c7a811f4f658042585337e44b, 0x0, 0x380d877e16ad2782e903de50319499b3c311de, 0x398ee3c0968dddbcb77af053f0b71172b90e670),
    (0x1b9027c5698e0e2a9454dc2a948821c5cf2f27, 0x0, 0xb63b8b3da2ebdf9c98ed4fd7ceb64e5f9e43e, 0x13dba85f8e15f96404c5f1200513539a877aa4),
    (0x400cf9a8b32d87044a6086dd, 0x0, 0xf378d89b3720a965564ff08, 0x21114f66c59c6eaa8e55c51f),
    (0x2a5a734e4e58b981bd, 0x0, 0x189b23642606d0d7af, 0x12a5062b843b22af47)]

theorem hifive_p_prime : Nat.Prime 139984046386112763159840142535527767382602843577165595931249318810236991948760059086304843329475444733 :=
  Ecpp.chain_prime prime_12975716899585051 hifive_p_chain (by decide +kernel) _ (List.mem_cons_self (a := (139984046386112763159840142535527767382602843577165595931249318810236991948760059086304843329475444733, 0, 11567988590541073590897922069853315622094047299582040997770862530820059040354387972224120318941577233, 27876482135641830119366351429728135095844384445567510476944393938678775971717180165890377840630446575)))

/-- elliptic-curve certificates `(n, a, x, y)`, each reducing the primality of `n` to that of the next number -/
def hifive_r_chain : List (Nat × Nat × Nat × Nat) := [
    (0x200000000000000000000000000000000000000000071415fa9850c0bd6b87f93baa7b2f95973e9fa805, 0x0, 0x377100539f4b2b0797a3da335774440f0af69856820309d5f0a4e1f560ff2dba28800486a0136aa1f14, 0x15fc188a7263d998a2b8c965c77991ec3970b3bf593b994d17245e14952bf71eea4f40fc79dcf2d89812),
    (0xa72f05397829cbc14e5e0a72f05397829cbc14e5dd1d299b70bc07a7b9d18235963e216c1e0886edab, 0x0, 0x87f5e1ef0fd81105fa1e11a756fceffa6cfb1fc6cd1f23da7b2a9ea9906d3dfb907d6b793e73a02af0, 0x7fc7bba966a0c5baad66dd35f0ffb79ccd8ce55da2460303125c27aa64669f3d1b93c6eabdf77b3c18),
    (0x461a7d753ca56f68c7de1f19ecc78e1b47029fb54b93a017c6ddb11c1807d9138233ec8a4e3, 0x0, 0x1d23a6302efaa162b635e19af61102073dd82a9912ff8021572651e14cb32b077e69322c85e, 0x44c8f011b51b87f55763ffed6e312ac240b6a53de4d2e1c08585c46880d435ef7e1cb9ca332),
    (0x388ed5f99a5bbd3d08f79561057edd243fc5a98155c27085dcd0a6ff909230ddbc41ef, 0x1e107c6e2414ff2c4d77a7d1be72f19f7bc1363a38fdb7a53b60e40fb490019891a9c7, 0x135a3aec0dcb53e593323bdd3390565acb814541d84269727e99ccede8657a60fe54c2, 0xa031a904c34fa5984cd226bf47d738045fd38c3d913a4fc4b1250f8dafa21a617368),
    (0xb4fc4651edf25d901cb1de0344c92a0d98b02a1b76b58dc9273b5920fec0d8373fa71, 0x0, 0x3ab54d3cf797468ab797f2e8669b1babb3e3a73ec7b5bd108b66e539f3ef343394ae6, 0x29387335c29726f883a5a2bb72719644ad43fc4d0550486070db262e642c38360dc18),
    (0x1270ea7a10352e5df62a3762b54e50ecee26989238e2c33a28e869831bb0fd1, 0x869bb52b45a58c16fb729c08fdb8743b2927dc84a97b24e92a5a7511905f2d, 0x6cc3000d0dad9409d0b2f254acce7e5dbef60b1d8d648281dc999a7d5e2e12, 0x21378282d063a90cca521d947a82302c38d86512ebf57fa2886518aa305519),
    (0x187c0b69c4cf8e6375635340f06622d0274b0d32ca33802a6c6278f41, 0x154e2a7e3da0d415961ef850da1402d87382207bb2f99d78c88724fdf, 0x163ef5d6f2184a0d05c1263e2c9f6f09816862cb3c2e1a38cc9ff4a4b, 0xe62a18fc04b9a75150fdc3d97be8ddf369139809f0515e23163e510f),
    (0x173e441e746fa7d8aeebd316f2a88c2210d4d00633ef87b860cc3, 0x0, 0xc2d81eb32acb5627f91310f96c43fba48686168bb031444dcfac, 0xc4dca95cd62a1b55ab7162d3996fdc6ad6c61a504434ac6d92a7),
    (0x20e8c14d047e9bb17ae59e7733850c0137598016b395d2591, 0x0, 0x2083f616445c08615543270955c7777b7d4bd9d84d70e36c4, 0x1651a58c5cfb79bf5e8a71e0b76ddad6aca78e7a07c7ceaf8),
    (0x1884f539efb2279ec845b43065d12158b163a648b017, 0x0, 0x8666550aab26a04f393ce0524f2bb5f16b48322e92c, 0x1314c54619f2b9046e0e81cb99a3d67833405817f93d),
    (0x945319938aa5a4585d14e4aa91f65bae32d, 0x0, 0x2d0516484473d22a8894af275f563981bb4, 0x7be22db89e9d21310302b97b77a5e9444a1),
    (0x2826318e52de8a8c746ba2f742a2d545, 0x0, 0x264affcb2771b5c44398a988dcd0d7f2, 0x53c4c2174c70d04a070a743309d9291),
    (0xe96459952d9b85f24070626303, 0x0, 0x21ffde3cfece18507de964f0c5, 0x37957681ccc078617aebdcaefd),
    (0xf13987ce0e7388bcff988b1, 0x0, 0x98b4befb3d75764bdb24c53, 0x780e3981b10fd9f1402da4),
    (0x34df0537af02475345ef4d, 0x0, 0x48802d0db9515c994c548, 0x2f26e19b375193f9cfa962),
    (0x1a08cbe760ac77eaeb, 0x0, 0x3865ec273a387b13, 0x19b8ffdb89238b7bc4),
    (0x13d5f0b042c79fb79, 0x0, 0x10633c7999ba0cfc0, 0x14b3bcb13f8c9cef)]

theorem hifive_r_prime : Nat.Prime 17498005798264095394980017816940970922825355447145709836587587134987699588874282995658187611024893957 :=
  Ecpp.chain_prime prime_10533539449 hifive_r_chain (by decide +kernel) _ (List.mem_cons_self (a := (17498005798264095394980017816940970922825355447145709836587587134987699588874282995658187611024893957, 0, 1894754170393105076347625322236196511658234359090694497241700892963662318170586418951728630795476756, 12021539799286474324805261524786843718291951630504129997759821784258472138817258490816686340445870098)))

/-- elliptic-curve certificates `(n, a, x, y)`, each reducing the primality of `n` to that of the next number -/
def c41417_p_chain : List (Nat × Nat × Nat × Nat) := [
    (0x3fffffffffffffffffffffffffffffffffffffffffffffffffffffffffffffffffffffffffffffffffffffffffffffffffffffef, 0x3e87ef7b22f2967e3d75703c764c30f91be150e923e32710ca797b6fe400583f1d622bfdd2f025515722fbff21da4c5156256bc2, 0x13cd1b788e9444d8586daabba45f0357fe1dff54c228c2bb6af503685ec916874be4d6834bb699989c4cb21c345ea28373094ff0, 0x79c2c2edc4b312da0755e2c85bcd3c03f542cc7e8977c1a8658d475dc73316a2bb749b2019981c5eac91710989720f5962b9151),
    (0x12bddbf3f8056a67fdc870600617de0e6ee22394a4540311feecd3d62ea95a40e267cc8aa5716158b613dcd3153a2b, 0xcef1cf6c70eda72204cda3edcc707ad3f4d52d34f7e4ba8d09e7ae4d825d5ec686d927fbb1c87ffe2c6e2f36fc738, 0x11aa039ca0d768b62e2ef8258b8dde215ece17520b2d35177e2000a99baf6d10f0e0c88a3c796dac19c876bc0011e1, 0x103cdd090451c63fbd4197137765df18f24ae21971f6e1f50431d504e6112eda248ec510a9b47448c470a82ea71a1e),
    (0x35e2597d6917d4a69d544f4a85a928c1af947b13ad49bf55e3c9a4623f73263ae37b3ce70c4b09f733fd, 0x0, 0xc5d4c179b2fed8e1c232cbacd7f8912838761fe6b071d798f34f6d37d63aafc38f1bc5d4c6c40d5187, 0x12bf4fdf14bbdb007b6ff40fa8efebcf665c5d00e7335a7456d79e169c9e1166213b8e97673ab218013c),
    (0x37506dd8deb27c9a3debc382a6c49aceb8da562f9f2ee516660a50ea9eaf540beb78a4fbcf5, 0x235c70deea964b63b5215ab0b67feee3e98c6ed8bbdb4eac8739ea5ee89cc1b90aac88b1e9e, 0x36605758c59d62429e42bf177ad61efbc285dac087cdc7d3cae07ba85fb09b8d072d7058fba, 0x319228defd11a68c0179ba1ee97bc9ceb4f2bb32a5d0a0e582e106cac73e3884122b18cd3e1),
    (0x29ad2026750ea0fd23df7caf3721bb937a6ef51dedfb988156c0f7b502554ae8f59bd9, 0x0, 0xeb402819f6424bb4541a8cd9093740a654cc69f3d12d9f7481730c4928198f865b2f5, 0x14bb78cab001aaae507d6ea16d27dc895e003515297969e2d19afe4c0c3dc2f39803e0),
    (0x1cd5a33ce3d7411aba3c18e3c136bc36cf350363e8e17ad82cd587d31ee24c81, 0x0, 0x15ee603c3a55d2ee787068ebdcdf1813376d24a3c0b0a7719a343dd91c777dc3, 0xd0ca03b9c1b26aed6683fb433841ddcf802999678567615401851f010dfa865),
    (0xbaaccc05fbb104b947bc9056718d04dadaf5c3413c27683ea6d40f7ed73, 0x0, 0x79d0a43fe6a3df48e6b284700aa4a191bf7ab9755bc835fd3a7b44b764b, 0x5fa2629b1b45b43a3f346c91c3605411b0a669de11f053a8df29c259d20),
    (0x14bdddc7c6a1e4149631655ef02c1d76d788d1fed942b7ee265d233cd53, 0x0, 0x10d180126f4353634ea4cfbc5cc23b2f95ee543281216533183055c3abe, 0x56d77403f49c79ee84c37c0357d2b749537b378f04e6caff8328b1fa60),
    (0x52f7771f1a87905258c5957bc0b0791528de24b13f5da0db46ed23eb81, 0x476d619a17387b2f297d752f33437419bf0728682ccf1cd87c4ad52c20, 0x278dd04b648a10f7e5493fc6b37442344055f59b4ff4cbac401bc674be, 0x28da8b0d1a264963fba470c0c1535e9c1f1beb01b780b6f1cfcffd9859),
    (0xebfe7aa81df361a04676487c73bceaf0e749f41dc634d545432d30d1, 0x7537180cb39081b910e8ed4b69bedf97e9a6305814249ecbb2842ef1, 0xeb606a9d3e0d87452dab355d49ba7cbec3430bdc606e09b6f95a9b18, 0xa301c98c9ed701a99795a77e8d0a2642875f2a51a75077adfe4ed2d2),
    (0xb1b08c8aa117a0d90de69cfa511dfec2d40ad25163d21d42c05991, 0x1d688153ddab3761b80c832cd9bc9760df291ad16d6581580af5e, 0x864b4a7e098ef43de8e48779c88a7998c98441dbf90c63192975b9, 0x4acf0eb5f49862ca15e1a4aaad2a281ea111affa3577a3a241426f),
    (0x266f338b6195fa5fa46aa244a46685cda3aea6426689, 0xe118921e6bb3f7c2bdb2c34f3abe1ca2e0c0f3f23c4, 0x77ca1933e3969966159eb19d93047b4d41913d9e89b, 0x10e8510a14757c8b68596022c6d8fdf3a70d34d71447),
    (0x17cb62b8407a41e25ca5dd13230b298b10daa5a5, 0x0, 0x1549e09f5bd7d111ce0d837b55f5f8bf519f5137, 0x13ebea1959c4bb628f7895e05b378cadab015a1d),
    (0x8cbb81e99eef0191bd2bab9385093262c3b, 0x0, 0x1194072904edc0ef58e238fb08ce3e9a51e, 0x2f4c0ccf9dff1fabed50443933fcea186c8),
    (0xb13bb7aa10941efafb25, 0x0, 0x2b9da2be813512618fd5, 0x18d36a49c1a7574c9002),
    (0x121565e57a3e250743, 0x0, 0x523e0c487e656ff36, 0x1111adb2376b0951ee)]

theorem c41417_p_prime : Nat.Prime 42307582002575910332922579714097346549017899709713998034217522897561970639123926132812109468141778230245837569601494931472367 :=
  Ecpp.chain_prime prime_5459538862736011 c41417_p_chain (by decide +kernel) _ (List.mem_cons_self (a := (42307582002575910332922579714097346549017899709713998034217522897561970639123926132812109468141778230245837569601494931472367, 41336489422709957448519160571818142943597861312499930464214041268802898692476444690123949481358976221335053959900766755187650, 13089701728875056266029717763573117643841123036148435763191691924267900352231939517803902170791215717145664019700446608838640, 5030668433109685743991867558967898875093325124930135317715038405590583927948832461831187359601238065815615290756310382645585)))

/-- elliptic-curve certificates `(n, a, x, y)`, each reducing the primality of `n` to that of the next number -/
def nums512w_p_chain : List (Nat × Nat × Nat × Nat) := [
    (0xfffffffffffffffffffffffffffffffffffffffffffffffffffffffffffffffffffffffffffffffffffffffffffffffffffffffffffffffffffffffffffffdc7, 0xefa89db262e0e501259b175013bf4f77dd8f111f115959cfcd6504779480fa11d74bfa299c21d0c50c56a2183bd1cbaa2d689761944879326df718b6f5a2ed6b, 0x6a7038296abf75ea6e59f11defdcd058b428b1ec437432ab4f2a71ae3393dda749a1d37b0c596548596bb1d39c6cbec6c2ddb8bdfb5fd513d5577292824be292, 0x4e36901a2e470bf72e60eeb789c547aac45897680fc482b5c156ab209c627a886bf595cbe358bc0fc03a366f90451f31b10f042f399ecf30b25533ba0f377cc7),
    (0x4e3c4b03271c01db8677ef29b63b4a4d50f9a987a05f9df02d7a6c5ac52bf7d44b2f0953bf2d314733773d6a5555d51d35aa0571abedeed0877500f42aa5, 0x2488b1e2c36600dae001badf41776a8f390eb9b2cbab1e3924cfcd8734ba82b429556b3adbb2d1c92b81fcc502c42d8752e9eb01b5a1699feb2aaef9504d, 0x4ad9cae3ce6d2c26624602ea0e806959ea68771c42149c86104fdf7066d1b93f4c900acf7251607de6635dc81142b91cca16bcb0ca5122655919b5b3f98e, 0x22517a16817163a3cdd06237e39a11bee59d6e74912b55b89c5e8247d48b1af8a4a502abb4ac43a0e57d68500cd57365e8c5e386287a833d471e11f0081e),
    (0x25ca0b1d89b695aac2665e447312030b4320aea02e8cdb42be0eb1ec15d19d35304b1817296ed94cc318647eecee7d24e28bd113f0f5c8a8d537c67b6d, 0xacbbcda3964edc88ba096bc3717f18a0188804d229b649977d3eb7cb01a57bab1b1e0eea394bb2fe815a52d58ee0433c6f2f7fbd87de8a2300c70d07d, 0x1a81ad46d6c11bf76bad4d4883dc714beef36b7fae5fa42d5357f5f6f8769c4c58f807776388940fb34ccce8202c73bd1e6520a763cad74a294b29a035, 0x16991eeb353d4b1703018e15278b5ab17e8c6eaa232c1631483648c0db420c8b2ebaa033427c33ed8956fb78127ff3d4aa2d4b7f9025dd2b62ef38a05a),
    (0xc17e0133698af9fad6732e9de172cd779fe354b18fb87605924c2724dd109d96b21485b8fa65868544b754bf5f3b19afde270247dcbd22ea5ffcb, 0x9107874fdb38329510d3b88d2291e492a849808cb01df8855d0828bd1d626bab5f019bccaa953d682a019396908596d0c3022a8e3469ab08038d4, 0x2f5090bea8794f1e4fc47fb2e0e7adefc468b6d44ad80e971ff9dc5999c70555c3d8e26fdbe644d6f25d22067ef0522df7c8dcdcfecbc34d2b14c, 0xbbd6cc0f9106b86cfeffb79680873e762f917d3c967bd75ed759d2809745252b92746bb5e6bf613d751482db23c3a6ebd0d5ee6a8b7c6899b5aa9),
    (0x176216111720576a7ec3380be87205cea07e11c148572b127bd70b9b2712b8dfc755a5774c79abc17effeab31991558c636332f9f5345f987, 0xd6d5e351f38429943c13c5a6ad1074360147ca3b11f76d82d97eae52142726a791aa0b70df6babc204bed11361fe3abeca8343bd49810b19, 0x746ce49dd084cabdc37d07ae58ac2f65dac8a26c7254cf8e709f35ea8cb6d83d215f2d828d666cc6755c48327e8f76f72fa63a3e2f065966, 0x14f4986fba96fa8a50b71bedd735f909b2fbfd3baba52b7fbd4501d7d429aa3359761adc3ed745398e79f1a22c1e792ca8385f27c91f2fb6b),
    (0x4d89f7650e22eefc817fcc287a157eec277a4c03ae4e04112bd0adc6721fe8d1b0c2ffeb0b2e52cedf3c2bd19d25973707ad351b, 0x2689eb9eb782bf12992254c27bbaf4fab4b18f621ab73d6ca30304ebb2421cc047e4567965cc98a665146fb30b230fff3ccc226b, 0x336392bf8335b8d84d9900a250a76d6e9d80c78c57427da36d1a3e7774807f489b856864aba81a2a4778768313f5d2e1fb48dd60, 0x28efbc931d0c212a0c431a96bdde8cf19d8ae36bc84abce0eff2ef0836be569525fda0e797c4880f82ff186aae1599f63d9d7f8b),
    (0x2b0ef98e30f18660e7d7e7a76a1c98ab1f5ce704d2140009890fd932b98d388346764a1be37d51cc7f0819bcfda84e972cd0a9, 0x11c52a09eb906017bd244738e6b677e5192246f5cc8a492881b54551e2ed13425e186fdabf688b68b6751ef08931247f67d413, 0x255e53dc0f745d676f99468244eb3225c4d996b21039ad82e9c4bc73ab79065f374a10e8ecb780ab7d5d4cc08bcb36c521741e, 0xf682f055062dd9f4dd75559d64df9f5e026cee308bcd20ebc3a2a25674a1b88f2b700ed50d5cfcfde7d3a52409c5e5525bbaa),
    (0x1b83f8b8ca06d1aedbe0916d5058f685b630c471ef2fa10f8aa90ddcba9737aae179098fa667bc781370535, 0x172f8ecc2eb1b03a100b18c7f9dd5e16c7bebc8fc30c3d2667a345ea6c266673438d82942a7ee0e5c49ed58, 0xb2906a36c49a77e7a9f21e214b2a170afba082f39b09af80c206221c0b3cfa046e14dacf7fd7f6dafde48e, 0x7311ad5385a405d27792efb7e4a42d98417231cd54f55d34495fe8d24cdf5a285ab19b8f3b97cbada2a6ee),
    (0xb0196b050cf8712be59d3c55356c90248e04e93f945c9e8b5f7fae4eab0064a8d91cdd6687f1b2b72f125, 0x5bcf26e94561b0abdfb9d185859d1dc95cb91494c523c340cecc6a50b2e8d51b04c780e760306ccd423dd, 0x3b01ea8101e2245ba0126ecad4835389e4d4c3699ebc02fb36c9ecc88ec83c664d7094369869d27ca2ec8, 0x95cbc976fc7b93e3a712b4ccb452f7341bc60e050ed437e55224ae0efa8e322159d7e89ad269e06e06926),
    (0x3ddc68095c1a062c0ab1a4b6de163321c2a9328734536cc090792c443c56751949dbdf3ecf0acdaf1, 0x0, 0x868a8b63173a9ffae1f27d6fcb854d4888381ebdb0de4eda870595f25a4866efd77733710adc55e, 0x2c38f9e98b4167de445937a13ebe21227095b0127af5aa376646e5246636aadfad849cc2186f90c73),
    (0x6df99c826ad8ee872f74b30c357cccadcbd776461afeaa969fd3175c90ae04b24938dcbebae2c1e3, 0x699f8171b9759a14100ea32ebc2abd733fadd9eb24e2a64752131e25cb002d2a09bc3d459568cc5f, 0x51778fe1cdcc744c1407e842c40df000f3130203a257fd108270037a4f51e848c2514e7e7f9f935b, 0x45990228bb1377fc3a9dcc199ba00f341261a09ad554d3440a10f942a266d0deb415554c11f6da1f),
    (0x24027c0bc9ebb02c7ff2e2d273b3124d5e2db3066db3c0e544c863b60825969af677214df85, 0x5e19bc9374576daf69ca6336e2847a49c1db9058a57ecb654de5e239465c6a8184c5d4abd7, 0x14f863ed5b07379d31f9eaee72a9112b9ea4025a0042e949974b840b2d228d39ea0b2dab655, 0x185438c8d952bff7686e1942582ebfbd0fac44cc120027f6a399bf8f9f4da40e655d87c5581),
    (0x89eeb4d04aafcd718d25b305b2998bbac376b4bf1c9b11419d83ea8f2a266472021, 0x4db162872132a4a58823b42c6c8f4349d6e1990677c4beca96cd741d6e8523987d9, 0x35fda834f1a1fc1f0c67d371c931d303c2fa797f350f5c0d019a25a21ed6f6e47f3, 0x14a24ba04696c0792e6e81a2c447f17bc0f05b41f6a8d486d1891ff40b2577f5ccb),
    (0xace798afa3e00a2a56e8f004d4461685cc46723bfdea20b105a9329, 0x0, 0x3e2670bd937e51fd52e0da311fe4a27c1093f3ce64971c4bdcbe67d, 0x8a06ceca7f0bea74c37f52e8e6cef8977dad26be8f4515f3bf75cc6),
    (0x56774a5d5babd3d3ef556130a150029608ff97d6cb3, 0x0, 0x2f43c9b3fbdb7fdcb3b4fc56835ab5576655cf4a8aa, 0xd449e5c8f0ce346f599fde5ff51d28ec75a9ddd8ef),
    (0x1d2ff7ee98c8be9cd8428638d942cf7383d2e7, 0x139a47861f5e73ab5b92cb2f34598433ef1852, 0x4c3b24fab89e5562d18bdabf47b66672b7ed, 0x459ef2ccb9f41f2144840cf356fa5e11d2bcb),
    (0x123348d8f9f7e82bd308033df80896c5, 0x0, 0x135db1ae0bd170d20f70052f100cea9, 0x9f17b2520efafa870e1b2187657444d),
    (0xcf731f002a00ac02fabdaa23, 0x0, 0xc690cb2e3579595e40aad268, 0x55e8844ba823cc261a9ddf05),
    (0x4f85b545a8135489d3, 0x0, 0x3edc49ab0864609a07, 0x4aa97398fcd8d1ebe2),
    (0xd1df8f3b9c5ed493, 0x0, 0x9ea1adc056cb03e1, 0x132c85af655202f2)]

theorem nums512w_p_prime : Nat.Prime 13407807929942597099574024998205846127479365820592393377723561443721764030073546976801874298166903427690031858186486050853753882811946569946433649006083527 :=
  Ecpp.chain_prime prime_2857702866091231 nums512w_p_chain (by decide +kernel) _ (List.mem_cons_self (a := (13407807929942597099574024998205846127479365820592393377723561443721764030073546976801874298166903427690031858186486050853753882811946569946433649006083527, 12551942312172489274107118212228282890421049964464211581463865535433437502943065198461206884967670582093553105700737251143582514545777401075139782784511339, 5574629087927756561038399224671446155028066617645892006798446429260294359709720410026816047246307460225478759609758688750284827450161627598745091531596434, 4096354333824379129901883195285500725824797200852676838461052176622218491078821224537090760905300420494588524830658518749282062230225742804007084067617991)))

/-- elliptic-curve certificates `(n, a, x, y)`, each reducing the primality of `n` to that of the next number -/
def nums512e_r_chain : List (Nat × Nat × Nat × Nat) := [
    (0x3fffffffffffffffffffffffffffffffffffffffffffffffffffffffffffffffb4f0636d2fcf91ba9e3fd8c970b686f52a4605786defecff67468cf51beed46d, 0x0, 0x20f8141b8b86cc91dff0162a7780a5afdd04436b0ffd0a0b563b9f6f82a33e930f47f935a243f5a6d217ee3919dcf0463abd4ede5af40f74fc3a3aa30fe963d9, 0xafd5088ec518973b1ce5603c42ba8095bbe00902000519a17894f23c605a4d720deb5dcc009a01b33e73371cea14d8d583352fee9bbc76593f9a8bcec6616d5),
    (0x2108421084210842108421084210842108421084210842108421084210842108989e88d8611d62be4283ccf09541f10dab4642f6f8ff3e073ca999d7b2876ab, 0x0, 0x15c3f457a875b9ca8af46c404a42e8a6b16e981f33eadce84f5d800da544a0294c66511c9e31826debe1240681b65fca5d0b7c90da9a16bac5eeda56b5edb76, 0x1cd6ebcbed66e7fba75562fead5067ee475d1f59d0dd4b10793742a9626581e95315519d74805a8c1bef9b30cfe3822275eb52ad9a3f5836cec952008dcf24f),
    (0x3dc3d81fa462aa45d0e3c7004190a4ab96bfbc3f9c7dca7e85994acd25460814eb23deebfc0a75227cfe95704b12c630cadde5c64ade1bac3947c7e700f, 0x144f505a534720c8b6b3bf377556c5f2e9e2a64d6a44170e66305c94b76103c57290525bd9897e6708e1201bfd7abc4f4e00e83bdff611d7f5eb3861ad, 0x1cfcb0dd46165654c5ce95ef0215830c38490dc167da534a79bbc9a04833c6688dca2d21289c365aee344bafa40ea133d3218efbee078c6c967bc148feb, 0x33f61f85913f0f74aaaebac77499a705c5854dfd9563ff35ed5e8bba9f6c8a4cbd5d699903bcadbaa18dc247afdb4756cb3d432a0c982c964cb25cd3ba7),
    (0xb04c8b68d6b38b744aa001f9c4a4bf69618a0fa5831dd21c641b91090a371c848fa3190eab3a04b85fb77775b774d1271375ba800f00bcace7, 0xa25b921d76669463d6124084529cecd30e117ecbe8139a88152403a56cfc9be4063944c614c4f91e9d1cb1bf3e3b3e0f498182bdabfc180f55, 0x40f09f370f6c4ef6911a244ab2301d5684c3cff30633f830665c12b3926e3d3b9be45dd057224b366aabd0f70bb56bf4f7c89a1938f62586ba, 0x6e1a74aaedd96498b49c3276af9eb4b3688cbe255b2881a1dd068b90b202ea9d21dde416c6016ca4c04797182e47698f0b4aed693ecb942d5c),
    (0x61463b8aeaec1c4dd5428acf99ee42974616ed3320180df34a9704a190ee2c099b2583b5f8fd1d4d1652662645fd3acfd01c7148b, 0x2b1a336ad03bffa85c864fc47dc30f72c0674af4f02ccc18929084c67013d6b1c1135e52210a610ff118c3bf890372a0ba8324fbe, 0x3d303ab5deb0156366ae9d11d53de07319c3757421f9c49b9e6016e0254b4dc3533fd4dcebee47dc3c75e0e88b142bead209ce3e9, 0x29122caae2a91d87ca5cbcdffda2d1e10494f5bde77c33d0bf91e6e8b1b40383e5ccfb6c6573183f72723610af88a428160c94f28),
    (0xcdb283fd2ec0ed7ab0daf392c87a23e054c616e3d99b682bf733c6a4877c07d411e0d44dae2855f78923c376c1a5e500e0f8bf, 0x8f7e0b87247d679cee722001793fddaf71641f0d047cddd725bbfa53ffeb64a604406ee23d8b20654903fd8919851e202174a2, 0xc5d93817e2d26f347232eadcca64d37a3c67e4f8ab70534d2b88329719a4c999e6ffaf68675c22d1b32ed5461d8211da5abf72, 0x503f5183becd5fb4253f5eda818e5e2ea7a9badc7c4a9f32e87ff1668aecf3e682a25fe06599d7b97ecc876bf2c95f8ac2b40c),
    (0x26caac9d024b0e34738160f3fd6109514d489adb12d96f29aa463f82dd69091b6de253dbd27416edb215e83328d78340e5, 0x8365736252e1c710393a36e2449927a1888da199ca5269e0a466e3d18ad319bb87f1b5cfea5a771ecda38f5c8ec147d40, 0x234dac29ce7b30a26c8f12a949a4607129fffd3373f90940ff0acd077acb019b0a840a7899c08ecca9165bb06c570a0bc1, 0x718f9334ee6e248a39f34214179b6b4c1ab0083353b85a2ca2e653076f4d6e3aca8f0577e268ffad21102e9369c0fc79d),
    (0x1239633822911d8355b966b851e74f16932d1e3e7f6792ca7b90853472a4a0a47305a5f886b7f1b3b3f783bdc15, 0xe929434f61e8bf68e2a5669977584959d1b8752bf2aec97764764570f3452dbd6fcead4809f6f9471fc10871c1, 0x6490e0b1e020da5a076a14bbdffb74ea4b1444c7660749757c7bc62c2db77a5280123f9869ed6387fcb6d34bb4, 0xecddc3d6befcdac7e08c3c18790bd3e5b0a8ac760b12ca34e26e6fc6bb0490404973922beb4c72ecba51ee4fb7),
    (0x5f20ea154c8c2722c282d6b758f2ded634197e2a321c5b27e9b3e5102a17aed43c1168615763bdf29430ee9, 0x2f04598f88b0e8d3f48d66842c43f099735d0329d850e0ec4643e181685eab879d8b9b8a9e5dab5e1dc9651, 0x187a83917b1dfa86748152be71731f5f7298f2a719f23c95af6f2c34662e285e337aeb300145f4ace565fbc, 0x2459dbad84f9420ba4879b94141b13edd8353c503897c15c82d151e6824e28d9a18647df8fe973fc81b5d63),
    (0x371ad1a7c9ea7812545a146bc9e4834515c6ff8322ffbc197acbc96ed1c26a47685186b36f09d51a8d, 0x28c1fc02af762da821e5ae4db2cc9f3feb81bfcec70e3d296a2ea2bcbbaddf2935059655348ba4274e, 0x12c8904229a726495d8e8f70a9e78f1fab07cf3eb9360534f03f3f42f1173ec26ba886e29a5fcc8948, 0x3d072b2c4b6427dde3adda6537a7a58bab0e4667e91a45bf8909d4574069aa8641bc69770520adec2),
    (0x9cef2b646d5313924fb8f08fdfa5d2f34fe410ce12f26bb153dff02bc210d8196906e8cf201, 0x22549fb1e63008dda48e8bb72025da0b8990fdb184b0d7a72a5d16bd3ac04111670dc4c51bd, 0x91aa382cbe89dec256913316fa863095c706869e3541bbd8df1979bf67abdd2ce302d86ff42, 0x2787b796b95792fc2ae2a806aed83a4a5c9ea3b965e96912531f31574fa3be5327dc361c238),
    (0xa765839e527abf8affb433ccaa4a7a9d22045847e5b378d7af224a47da9c9a0ed73e61a611, 0x0, 0x3810003d90ae67699069aeb31f1aa9af516d128f5375e2695ea506df2506f8dc34a99e9af6, 0x70325d530e654bb11597de3a8c54daf4ce19aa2b2540ec0dac9db03a129ccfbd5e9e23c376),
    (0x37cc8134c628ea83aa9166998e18d389b6016a98be71eefa3f4d1a9c271cdca66ac8a93f45, 0x3642f4ca8b98f4c1db0bedbb19540cfbfa2937a07ec5303a1506fb57c8c6ffb8cf87d92f43, 0x35afcb277426292c94c152e714903ed41eda7a7efac94cd9671d91cff0170e357863faf9e1, 0x7645a95f46fa9ccc75c9c9ef8c59acd30223f66456d74f2e10bddd7da179b63afb3403c3b),
    (0x44acedcacc8120a20d01b95a8781045ab89f53b6b27fe69289ee8c408c373f5be0478281d, 0x348951e1ab8cc1c874ab6ba491b29dd4af0d4132df0cc9808b2f1b3ad9da77f19fc258697, 0x2266930bc4e245efa0c1e2d27568d25552a3e8a395e4b37c5e4495c0e42cff42942304e21, 0xc3fdf7249d8db3b67ae57fb97bb70ff4a2db88ab21de8f730acc1c2e56bc457b009537b7),
    (0xf15c4c119d91369da7f6794bded3b167c91c83e29ddfa9d0f92428ddbadbadacd8d, 0x1945dc2effcf5761956c96000b1a65daf554cd63ebd8962190fe670f5eacaeb664b, 0x4673ace58b6623280a3a10847cd6bf777c75fb6de9f833022b7031f835cb870b579, 0xdfc846013f16abb8219d9bde07c6edb8756f2e48549142140d7f42b5e89b22eccd6),
    (0x7df87a69618d1c2dbc62701a7752b59d38c859b5e0650465f25d4bdef1, 0x75ab833714669bb2ed62a1deeaa4081fcaef63a0c3aab0aa9beb295d8e, 0x4e32cb1ccc5a25b71fdc58f952f96c8528c3aec0f5640810aab6f726e4, 0x386f976095c6997a6816d486534e78e50531305bc2976a87c2343381aa),
    (0x3799cfa1458a33476309e754115b3305d6cc608a532f46c41dddf8c9, 0x1c6e68285d195702be043bcdd47dabf16c2d5e37be098a29e6b4e2ce, 0x1c77fad7387cc72c15c1787e2bf9597a2e9fd7c5cdcdd5ed82df68bf, 0x106f58785474985d28735eaf5b3a042dc3208d4203c5f45c7efbe02b),
    (0x45c178d2f8e8a5981433f7f3b5b9d88816316efcf8ae7167d, 0xe83a755f8ebb08d82bebbfe3fc7f5d5459b3f2ac59c65296, 0x19bb679e92af599f68b20f5dc4f8593f0c1c503c06a7647f4, 0x3471e1dc5a18b72f7b7aa14af042911ce424e8449eb29d451),
    (0x1be6fd21305d0f09a1ae632e473ab5f7cfff8edbb90b8c6d, 0x0, 0x14a8915632bee8b973a351efe2f6468a6060df66145c6679, 0x1b87cb6ccbefe76d73b7f83f8e69fe38bad2fe349cd0454c),
    (0x94cff0b101f050335e4cbba4b21410094bd660ba23fd4d, 0x0, 0x85486fad9f33dd8723dcae39dc893932fe7282aa095c29, 0x54165eb64c885d742955f9b917e66efcb6dd6f2c957ca8),
    (0x319aa59055fac56674c43e8779f087ace426f445d5a7e5, 0x0, 0x146687aed0797870f4792964eb90b3476ffb0a8bfca46d, 0x2f61c16392c7044b287b5512b87b617077bc729cc3ea8e),
    (0x106d29a481b8af7a08fcea0d55fa37ee646db411e89, 0x0, 0x92cbe5302794d2365d7127e757b9bd5646962c1609, 0xa693f883a4b3a13e068bfd0a68f1d0c5a3ddc642d0),
    (0xcb539ecee4be64b5d5f05fac41f77172f4f1d, 0x0, 0xa3436a955b8907d21f06fa60becd2a43a09ec, 0x9c44a2958357241160ce4099da9384c383aa3),
    (0x9bb14eed6272b51acc38fb25540ff6e5, 0x0, 0x99d0539ac55529d4ec7bedd16fe05d9b, 0x1ab41a00c7194c381bc50aea45780d77),
    (0x819746bdc8b5a00cba9461331877f, 0x0, 0x28214cf46c2ca7f614cbdc8eabff7, 0x723be4d908c0a6e0e8ef32831863b),
    (0x1ccd4f84835235e35f367, 0x0, 0x118191ceb6bfb7c19eb3, 0xac09eca352bc0ce14ae9)]

theorem nums512e_r_prime : Nat.Prime 3351951982485649274893506249551461531869841455148098344430890360930441007518352793153488350694180520135954320847829180421680307949560336637308783918240877 :=
  Ecpp.chain_prime prime_6167926532105383729 nums512e_r_chain (by decide +kernel) _ (List.mem_cons_self (a := (3351951982485649274893506249551461531869841455148098344430890360930441007518352793153488350694180520135954320847829180421680307949560336637308783918240877, 0, 1726729615006436255229467466553830808706941522793703333945838655483087545084175027850809383728088885185927041670174032417920016449266888422820663469368281, 575567347100599639932582835714298840015931584538256173567637400810650298442145733463047456954902536030649308507425662180216037909823088602999374429427413)))

/-- elliptic-curve certificates `(n, a, x, y)`, each reducing the primality of `n` to that of the next number -/
def goldilocks_r_chain : List (Nat × Nat × Nat × Nat) := [
    (0x3fffffffffffffffffffffffffffffffffffffffffffffffffffffff7cca23e9c44edb49aed63690216cc2728dc58f552378c292ab5844f3, 0x2106a6ace01c7e57432be7ef523158e743f80c138650b491f44eae0b78d574b3e238a50e79a8bf2857d528c7fc28fe9af107c4dc628ccc36, 0xd215322b7f4aa153344e00b587a4c636e3072da155b39fd3b1f6e01a1d53ae79922b7f1af8f1cec727dca4e164444dc29bfc7e2845a8cee, 0x37fd2ae6723e6d66151e82286c58018b905aeb782fad04f3fca00270510f8168e90de0bd7faf385a25b4bd14a4a40b37bacd03b7dc24ba91),
    (0x51e5ffb43951756c3c52eaf7c834cf4a4f4c2882f48d3eda73463250ec2a181c17a485a4f805692f7d7917dbdf9818b6e78b, 0x34176a982b30d5f478ddf67082693985a376fab976af2662f51a18e8765ece3999f55ee62a6dfbf21e69a7ce71ffc652919f, 0x262cde95146a8f23beaba54210845acceef9299f2e60c174331024486f29aff01fba90ff02b0b37511b6718cdb0c4a4a22b5, 0x4f7f31010c346ed12823d70dcf7f27e4e9e21dd2827677b80db2ae947269267910de15dbf4341be6829eaeeef649515969e6),
    (0x15c6f68c530c056e36bac6c1634dcb0776130de587d32099d00b64bf3874018c1eaad924f0767afaa38b866d9dfb833fb, 0xc7a1becbb05c2e9409b4af3a14f166d2741b74afe5bfa9f835aef49aeaccadf6ef087941659c08c4d7b4ef3ef14e8a87, 0x13d5a4ac0d2aea106f06caa428a4c857c6fc19772e237981cf6df9180c51cd4e42a334312f7687d681e2fafc67f05a08, 0xfe24e13750f22d6d7b23955bb26162ae0f9c4a60904a0dd9d9484f87bc8f69c2062a2dde6363bac51e49e2398993e601),
    (0x68cba72229c2b9cc242b4839f063300b9a5ef78255828c062baa6cc1f941beb4ae6da3cce82bb655485fde38d, 0x0, 0x176ee1df409d96702b3cb9c7dbcdcf964f5dd8007c93a2be5aacd3b3a1fa594ec70dbd947934057f71a9e6bda, 0x2179bf27411c2f116cde752d01b0601090f2cbdc6cd0f7e5984df6eb9dba890d74564bd2ac346d829cb0dc42f),
    (0x3c4e090c5c86c13e59f542d5b58e0fdba8e02afd247f9fd68760d8c5c5f848a8d75e9e1d081d9d3c029b, 0x0, 0x105224f4b4ea5f2ca6b25abd7489c64702eaf578cee3eb8c64172f657ffc737a4b1adc3bdfa87193de3a, 0x1c2c84b8f279e7a2ac31ddcc57ea7c44e3ae8516ef7028813fe7dfd27f5a991a85033fdadb6efe7626a2),
    (0x141a03041ed795bf7351c0f1e72f5a9e8da00e5461cfe51e3760b9759403e8e191527c49adb4a90dab41, 0x1117b879bf4cc472ad4812cb2952cd3e397e32fecdefa480f0123f46ee2a9306f898f5b5736e2c433303, 0xeee305a8f27495b3b2b22b2965e22992527c2ace384287814f7374038c9893b79f9004f09f197c6b432, 0x25b1a175aa26123e1577c4c5f74a095940ec8e7fe621210cc2fdaa0f21f7bd485d3f41f9532c6d5bc55),
    (0x2aee858105bc19732caccef1a168a4127070041f795c19481050a7dbb190da448deeb, 0x0, 0x138aaf19da3e8976f16b9d87d9c0676abe202ee5da0d488a0c0cdc099c5cba5175a4a, 0x1de86833b6f19a75a8f1639eafdbcc89b5993ae06f5bd05324c4adb66556ac0593ffd),
    (0x18fc387257a8de5fbee6c917566236034651c91fd5cf8c3d1b5cfc2dc27dfc7, 0x0, 0xfb18cbf5ad49643772c0123ccb0d3f9fc4462ecb5181dc376fbecf349e9b4e, 0xb7831fb907a3ace95696151bf6b4d95f0ef0f1e87222c9004035522ebbe373),
    (0x159c5e065ede86940ea897c307fbec1173385aea736e214b3471ef5, 0x836592753f397b94a5df286c262587c63b48081ae6f57ef943252, 0x12cdf57f9bac59c11f5083a0f9d6a6b1639820ec7bf180b9695135f, 0x1328f277ddaaa1e0e8d6e16e43521cd2ef7b286bd0a14700246667d),
    (0x2855e4b52a4490b83ab7a342cca31c64afc82c6e4ffddd1a9d, 0x0, 0x40406484146905950012d14b712510aaca194933eb860f343, 0x23f91fcb32c912f8a6bbb7655cde722126a93e8a77f718fca3),
    (0x1e1953bc723bc4501a48a0da4355f98da1e001, 0x0, 0xa72726e0fd1a06646e1562af7441753f769f0, 0x9f8a3fa9ebc47a696039865ef0d3de80d6470),
    (0x9047bf8ecb6970b12d94b1b6ad308e68f, 0x0, 0x2e3dad2807adb9a53ae2fd0ba32b8bbe2, 0x4280ed49cc6d01cd1d95b75bd3ad4f359),
    (0xb40e205cb95b14c852df493d8f, 0x0, 0xf497208257f4d818cc14f0fa1, 0x187e141dedca00eca3bacad1e),
    (0x5c3324a355cb070cb55d509, 0x0, 0x1d42752a5c4c9491b4417b7, 0x1889e0c8afec48cd0462760),
    (0x1e1b2615fcaa596373ac59, 0x0, 0x1adccbef8d86f0003f4be3, 0xd9cec7a86e3d7359a0fb6)]

theorem goldilocks_r_prime : Nat.Prime 181709681073901722637330951972001133588410340171829515070372549795146003961539585716195755291692375963310293709091662304773755859649779 :=
  Ecpp.chain_prime prime_20018080734307 goldilocks_r_chain (by decide +kernel) _ (List.mem_cons_self (a := (181709681073901722637330951972001133588410340171829515070372549795146003961539585716195755291692375963310293709091662304773755859649779, 93767819244175133322299165480718582952889057848351937151480466452460760780280038682377966384880579251599399909826990049319550643391542, 37279373049205977123778545869923496884967156743284769932896412268501494700201962957862919073718338247984579155375418970937920119803118, 158964557466318350114304549774446612119142228077856290181525687694617891206434746535144191773541552134848712184249557270826198642244241)))

/-- elliptic-curve certificates `(n, a, x, y)`, each reducing the primality of `n` to that of the next number -/
def nist521_r_chain : List (Nat × Nat × Nat × Nat) := [
    (0x1fffffffffffffffffffffffffffffffffffffffffffffffffffffffffffffffffa51868783bf2f966b7fcc0148f709a5d03bb5c9b8899c47aebb6fb71e91386409, 0x75195e96159d36304549bffa2c931e6ba915aa98ca2caa939645e70590618f2c4487383326aeff9eea890197c9472028089b6fa516550c52bb1c38336be59641c5, 0xbe1e23baedf7890e46d74192b091a0ad8879f09b17f9612ee72cea850c37f8c9e4442a742e909c5294b380173e889c7f82454ee8c92465a93d389694cd2a05e7a3, 0x616ea5f3b214c54a6653609038d5bf3bd08b747bec5ecef5df6615d48739734cf6ea4600fd75a7ccb3a3d8ac59ffe03905d84829a8764d238e679ffc85bf7a05be),
    (0x333333333333333333333333333333333333333333333333333333333333333334869b69c0f529c3a50403a5a93d68d7b72b16db0fcdd9d6be324f45d5cee94b8d, 0x1bf05fbecaef467c72e6e8c24cd6e6e9e1ab9317182b7852136cbd37289a51dd57da21fd9425462b5adb89ea5764b20a2d7012d68083ece186e5f795dc37991414, 0xd64cb2cfe83c99de40e330716c4ff5d68e5f4866d5c8fd2178274e52933ffc45b05bbfe9d99784a1356c6e44304f66260a81db5f79bba7091dac4afcf80cebf17, 0x2c49eb508fa7983c54ff7ffd4dcfcbe016013fe5f2eb83506ea700e23c6a13b363bfffb2859dab42d983bb24a4caac2eef8826607588a65e31fb5a63c7ba28dee6),
    (0x7953ee67b40d3603958abaf041a3e87b1ae925b8f0678e22fb832d469a0f22e882374437d0424892b0428ed4da9420ae02eb9258a735896828573d233d5047, 0x37781cc937ffc67e84c5cae0ad9ca713f5ab5385516cebf8c23eb2b51c37710bae2ce35fec6ce91ace80926de2b13264189d9b2e81c811359a3bf0d4665dc0, 0x1bccbec81639f519be8660fbc3241f8e13b040dee6c6578b2a6d79371febb931a5e59b233f449f87ccc7764539a9366728aae373478b992e521d83fed27d83, 0x42d85565b63b76e308d3395f30bac37844e51c4d264e96c060c3276c44179f2fc8fd7d2168a2afe6fce3db0f834bae374ca8dda5797b23c3ecacec30ad0d28),
    (0xf428b2f57a043db67023355f22bb0ecc08698dd0e7941e3b9dfde03416374a01f00fd2fcff6ae0cce0ea17b96fa03226c6393c55ec24cdfe7336b5485, 0x41ae212b941918162128e8ee2d45c818f1cb8d7295205bf8158aa819fcfe67bea6611354869484550e180c5ecbb05559c68a282f111d5cd72979025b2, 0xb651ce70db117958c57fdf9243ae963b8b354c58273638e288b6e19676ad77dc3ec5b90ef8ca1e2751a3369346f923ebf42f5d4244eef157b71ce4d5f, 0x8b1fca1cd4d7c373c6e8ad4cd979f2bacb67ec5b7a69dd2ef55bbd2313bbe952ca1de56f152734f6ceaac482b30c5c26506ad7995c8dfe7c5a4410dca),
    (0x13b6e77110844047294c8725950ed610378988673b35c866df6ab8e01f04b61afa1ea2bb59727b9c675fbfe83136dc01f5c2a77e17ff8495ed9, 0x36afacd71644328968d666492fd6664e467f30719bf42debcf36c727bf7ed16a43b3eed2974a745cfc44df8018eba4661af0dafa1e285e906d, 0x60d19e698c0680ec25f9382977f8d9598df99be76e0b269fc28dcfd75b23ae0250ad4d59558835cbd4ecf3a89bec0b5339a034d9a1e7f92329, 0x7f29eaf694eeaacb74b35971ddb372aef8ddab528a1e45cc1f976011928511ecde9dbb065a16302a376f33eed08e50eb6cde8e1924d819f172),
    (0x16fbd5c7a8f24682be2db347ee5c8c153391521fb1428940d1c0aaa625d372563ab977848ba4c78622bbd6b108f1b33cc8c339f0a725319, 0x15002621547c5efba1964ef562caf57a4c5984eca1903fa6ff2bf04bfa3b28c9498fc12cf4700278e60eb4347f0903273bb7ff4922b62a3, 0x1e42041b509a9122ec249546235ec9e6db4caa921483f1c33910ea8bf7f9c3ef4bb608982b265bad8c08296f0e07ff3a4222249b2864ff, 0x64461d72881534d9f94c9c257adc3cb988890c6b5f08a29f6d967d783ab6fedf74e0a3368e3b6dbea87a35036f60d3fc6a0b4c1fba0f22),
    (0x3811e4eedb1f9fa9fd14c4758a4249b182d554024c90a1a0b8cd540e786c4452a098c98aae7ef27e18073aacc5c96e20f1796bd58ca3, 0x143c0886739f16044c802357eba50382adca2e2d220e4a34ac9b77507dbd2c5ed9e280a312d9d7e9d8958c81f0b2d7df6e6e485ae21c, 0x216fe5f9fa570548187d04277320773254a70965ce9362aef04cafaa988a1c615c51633a7af8a3609c8a4b5130cc8b0ce1915f978de4, 0x31db9f5bf54c93779ce2a6a8e950e79e37070162be16aad6b760411798bd6b38a095fddefce58ed2d4a449af3fd4767f66c1478e887),
    (0x37da0ae3f7287732ca4a79fb8eb3961b676de61c3060415f5973e0f328e681a9fa65c856ce6256e4b86e80e5f0e2eeada4cc645933, 0x2aab6e801479f78533992fd527823bfb7f2d178fc75bb27cdce1b0cc2187cc35e81c07da17cc26fb82a2686760af86740b9044583f, 0x15f8d7772487dbc837866bb48e8eaf160dd97bb9d1ffc776d9f9456246707095cf0e675d7172e144d9140f90840930cc3e7c07f19a, 0x108488de4cfd9606089a48bf7d2b3e13f77bded72f18e79e7732b8074ac24166b61f5155115e6c0ea7624b258e21c001dff7ec67cf),
    (0xa5a784966b9d479615fed16b8051d1f969a362638cb374f67859f7c03cab69a5b4bb741e73f56b3fe1252e352281910241e035b, 0x1a4b5a2000d3e2ba5ce35e319256215449a827ff8c2cbd3b70904ff5e0fec39024d08c561a887aacade564cb7b5184bb4768aaf, 0x753631ab4f14b55f510d7cf93b509f03239a50706397dd738f5c310d0887afa0aec885c027c268cfcc9a869cf7dc7b93521eb32, 0xa1f93d23c8151da69203e3709cd4d7e4db5ce7360bec07c42dace9af4b83ba5ef5ff7e097e282bf504d26b9bff050ea5082bd8),
    (0x64048a03e05ef616feca277fb2e8f2b391e50feed289551c0eb0d4587f172123aee3b881bf1bc4c46b75f0015a7bd6a250407, 0x18056e3306ddfbeeddebd558032b089dc0b8ffc61c431704e1f5420998e7c9332215685e1ffdc2b46f62743ef2fc7eb9c80c0, 0x3433f79a15429b1812b0a63117d94ec741782aea1f838de9006b80f627dc66ac2003f62c812fc5a84405738684a11005297f3, 0x54d97cc701af5069ada43dd151f8f742c8514147c866a3ec796fe42040ad7314bc0dc4f8f0482ce2f0a05cf99bcebbff9b8f4),
    (0xc8091407c0bdec2dfd944eff65d1e56723ca1fdda512aa381df0f7df06c60a5d436f02eccefd4ee1080e1a6e3bb59bd3366d, 0x7e1fd3e121aea78901b42d97f0546e65c47d30bb3f88199d3c759509d635ff601cbcdf7ebe2c84282edc9b9886ac5ab4b5c5, 0x1cb3b79047101a6a5b049f5917ce98f3ca4295fb4af2ec10ba62b3a5ae0c51a42189d91525e75b6397f32cbfb53d6409b850, 0x4f44ead01b1074bd2f0b9fc06ac43197b6c3060607dad7c00e17791b196d5a0374669d16cdfbdb16653f94b3b6a2eb9a4b80),
    (0xcef87faf0a41e995b5cfea8735aa3dc0de3c7ecd5ec38fc5659f228c367faee456cc148984dd7c106189df0798e5d329, 0xce9632811ea9547daf4ceb0afef21e4ab8c711cd76cf8c2dfed7d58a8723c7bd71b560f773fecba042f5e7a3d7c86d1e, 0x843ae49c2eb9977a386f3d1813d98f32213ddadb9d24ec22b1117b87158557675e1ea7bbb785b0d186a40f1a0a78fd58, 0x27a067066d4276ae492acad92bb05c011493fa43825d62501e5b1fbf3ca91c7c528363c94ea5b78ecccaa0d0439aa035),
    (0x27fd014a95fa92c1eca498bc6af8e5de8cb3646e01b179187c1ecbe1d9317a09e46f3d00daf512c2eb43439924fad, 0x26190e789435c0b795d79d1778f69be85abb9126d140cd8b76048ccbcf529b22501d0e84789f92d5ece7f94704ce2, 0xabdfc59a926dd767562eabd389b5a3028357c1edd21dc5d3b165210a2dfbbda42f52fa753f7ff480fe991b4e701c, 0x1ed44e7727106343d58978dce5de79c119e1c26e1529f1193aea9d9c731c2f17428d13487fde9d1f84b2baa474b3e),
    (0xe9d7a9b4c3c5ff57a0ea2ab318169d4e568bcf5736654aa327f3b22ce4aca80ae5bba60ed230fe0a09ab91, 0x24655625928bdba423f0b3f911680306bdc7f9363c6415945f5871f42e0aab593dddb33953c2e093ccb873, 0xbb5374946b7f8dced8b69db738e93d12b42ea87f1f39703d50c2a8fc0949980ab5d7256de8ebbb508f33cb, 0x93fc91e6cb3f8b8d0e8c9da5f845440a5df6129da573bf7febf9ebf3104b930aad1e0307662a1afebe8fa),
    (0xac05a3181a50eaeb210a6beabc6306d886496c63776cc38daafbe79082f5d6cb2888026ea8360541e947, 0x0, 0x13d294b82dac90b98f52a95d86d75c490ff21c54f3d546b4785833ae146f912d56e20505618bdc9ce4a3, 0x35fae604061fb6064fff0ff59fc1a2bbc11b3a7499c679dd7112ec929e8092154f583121c43db406df99),
    (0x5e18f6c09a6de7570b826b2b11b743329c99f0e573ebdf4e76b23f4136a507fd103ae728848dd112ef, 0x0, 0x51c01ce5d38521368a969531762a32646a905deb10d4441d9a964a47550e5a310588da2ef95f5158c8, 0x1694be579275f1963de703333dd98d861656aed7938f55cf6fc9e46cbd3f8834871ef1233482be11ef),
    (0x131a626948901eb95c4583fe2fda7eec6e8fb8b89e0dc70ef50901c6684f3696b40672120c67a49f, 0x66b9ff85a1b6dc645d10a8729981bb29ecc7b7d7cc4efc930c48483ac600fad6c473a08e3f77401, 0x1d179cb17612a73ef34e9e988a8a50ec6356fdf3cd990ce0d58b6b0764d254e6a228fa5cbfd824b, 0x971fff1af0630981c33ad62fc0ed1f37df961e8b5e8774c1eb4fc78dcf385f4aad7a7a4294952a0),
    (0x4729e4bf68db8a14e2e8346bd03280f425e177ec4050f63c3befaa9e4a4e379399b1, 0x0, 0x6fe12493bf74ad58dc98fee534fb2d98050f2ec4cdd640c8305b18b59c2384a4bf5, 0x3c73caed9fe7b39c69509f286dedb2f8c407f62a8693dd9964228965ea1e44640cfd),
    (0x1b69d234e25b121078ec060969fc7c80d0588b1b1322518e1103ea453d50d97, 0x0, 0x1b48cd65f5cd514d61afc9ef8ceb8b8f26bf40e4267dd83312280f3a1764ca, 0x836a3269d7fc3060b918ccb9419115f0c7a3d20037f02adb9e07b101111ebc),
    (0x380ea0dc350f699334344a4483a48d028cfa4cc76bf1d86571b5a498f, 0x0, 0x13d4ccd70043b26d0be7276983f8c0ac116a260ad3ef61672e7f13de6, 0x22f32bc2bb12535a6d582296aa05b3a91f165f91d40836873f35a5c79),
    (0x4abe2bd046bf376ef045b85b5a3071b6bad9edb149784791170865b1, 0x0, 0x8e627aa35c52b8ad9998870a1d9ba26ce4e1ad3bb930b37de6b4b45, 0xb4821cf178e28cca92079fb8ff9ba471e9e608966277e144b52c9d),
    (0x40e9fde408c00b7320b86bde342ff7d5e50c8a9919dfe7c461ef, 0x0, 0x17a65e8915750d87f3c01ab92a20ebcef8659462e86e82a13a17, 0x13d861eceb4cbdb870cc081c6c63740db17fbb05ab864109dc51),
    (0x31a2d3a69c587e6a128b396d2dcac54dbcc5b799b0d9e4f3, 0x24ab415b639a5685983726bc54b59e393d6900a5c38e536c, 0x16e3bbb79f0c3ee4639f17b57796101c983f1bab8d440cce, 0x1a59f547163bfeb05029c40c549a41cd0dbc7bd31890d549),
    (0x35dd8856884caa48c609a57336a136fe1fa466ef7, 0x0, 0x22cf69fce8dd77b8f4ef5517c8804002cdcedb051, 0x26756051e950e5fca9f236554af0b065a62f1545a),
    (0xc8c1ed3a1f65f1af7db26927b7608dfac6a1a9, 0x81dcf0f1955c2c48ae2aff8c87dda76f8570de, 0xa3d26261d227398a0d38e748ca5db5b9ef7185, 0x425d83af5a11bfd7f167a67ea6185f0db7d38d),
    (0x32307b4e87d97c6bdf6592d9efdf9349e1fcb5, 0x28e25391d0a1a181e547c8583a549c9019a815, 0x1acae1deade6a73bd897ecc690a432a02ca213, 0x338d3789ce405cd55bcfb53372dddd5ff0c90),
    (0x94899072086ef0f8393f919d3aa2f5e2a25, 0x768eb157e8623e9a24f3c871b6e4b32bdb1, 0xdb69fd1f24fad378128e8f04539ae5f23e, 0x159336851f97f3abac3a6a03d2c7a94018f),
    (0x2071ece01dcd17cd6090e27e40783b925, 0x0, 0x1aa217cd2f496081a80078fea9e667cb7, 0x679154e43ea686968d81d1ff019a628a),
    (0x74e1c91067c14ab64fd07d247e1719, 0x0, 0x4c2fb5b43d24368bd47835b528462e, 0x5156c3d2694399bb16b8d74ff3f88b),
    (0xcfca4900b874132e65cd8a4fcd0c1, 0x0, 0x99caac6910738aa9961d8209bedaa, 0x3b96b9d2897c1588bc1640bf9b2c9),
    (0x3923000032b8408e1fea9af06cd, 0x0, 0xb9bd0bdc96319912384a128e40, 0x3723461d8087ed1869e3ff9bf79),
    (0x12d40385785052ff989a7, 0x0, 0x5ae3df6eb6accfbd6cd9, 0x1b8696cc42f76857e95a),
    (0x5cb14c69b224beb83f7, 0x0, 0x16973f07f5bb2e21613, 0x4ace4d470fffe403782)]

theorem nist521_r_prime : Nat.Prime 6864797660130609714981900799081393217269435300143305409394463459185543183397655394245057746333217197532963996371363321113864768612440380340372808892707005449 :=
  Ecpp.chain_prime prime_2283851618023 nist521_r_chain (by decide +kernel) _ (List.mem_cons_self (a := (6864797660130609714981900799081393217269435300143305409394463459185543183397655394245057746333217197532963996371363321113864768612440380340372808892707005449, 1570042235158881849998811351157234682812199596184138843690049478872865592744205747441463242051812798272213777289574653086680854692137198489518782052428038597, 2549062044110890276204572840138643909525682929650852109918055370910442079078809696153237869793742375098520899439295257292232142159734380831057281270709348259, 1306352488268631401693749183274549024591974348889562964018193771352197558844114001344157733568648583750332712094732778232364868770823467420164907737233884606)))

/-- elliptic-curve certificates `(n, a, x, y)`, each reducing the primality of `n` to that of the next number -/
def nums384w_r_chain : List (Nat × Nat × Nat × Nat) := [
    (0xffffffffffffffffffffffffffffffffffffffffffffffffd61eaf1eeb5d6881beda9d3d4c37e27a604d81f67b0e61b9, 0xf7d5da37694d54150f5f7e6ec9a7b9b68f98fb497fadcfa9382c897d420cfb26c47781b5099af39fab149312e0d26d1e, 0x9fef0a2585920ebe0d780f433088194a4fe38f274d166f3dcff8ae195999ab0b5d3d69808fc4ac94555e37189113f591, 0xd20e7c6080f4facb2d63dd1dfc7337e49169e37c10057a5b4062ef109654e27c7eca5b64b4552e867eafa2ff6e343b36),
    (0xebbdb2a5c1619c8bf8a2126ad1f4f31ba03aef6ca97058655c9a28856533ea2008db34dcc59874b97c33882bee7043, 0xcdce3e8073ffe2108bdab29e45849338a033738fa01cfff6f77243e22ba73a1bf77a4a981a37e3dee2455e7fbfe818, 0xcf935c7162338b1611dbc422393516d0fd4308f7f235725109cf3f6d1c32cafde225faa264f4ebaf6e205f6ea4829a, 0xb5b03bccc9513cba2dca6576d788528a797bc499dcfc065bb7debad9ba6b413e0dc533ba7beab924cb952eef056bb1),
    (0x4cbf9f01e41a9740048084187b99aeff022a9b15a6d7345672f12de66335f814cf35255632f579e9913d950d, 0x8eb746236cef8c71a6afacd7a2901b6e9a6677b3b4cbc19137d4d926245fa4a0c0386b20ae5d82d8d067d4c, 0x3d564274cfc9ef16441462a79a0b592fcc90c3caa8d7d248b4aaf9741ee9810a88c2ce6e85b7b681e71cfc49, 0x23a7055715bae5f3cb8af9810be055ad0f5ea81d900feba33ef7c54264fdb45d12ff386282c9162da4efdab1),
    (0x4da898cc48f577a6f96cca77e343796b43f67e915ae7b89bc5a285f63e9de538c20fdfdabc7443c4cc6ebb, 0x2b14620f7b96e4558063c5550754ece9cfbc08779444b2e025ea8ae810afee4ba7f8a859849049b09d19cb, 0xd415f5d88f305d3ebf2336ee407197c698f88015467f3f36bf68b9f5cc071c5f05425b61da05255ed6506, 0x48fd9330d9b5d1a85dabb3751d27fe8f8246cff104324cfc9218e32a7d85f9cdce836995affbf3dad42588),
    (0xf881e8f41cab187cb7c287e60a71848a7314c837891988e78049d1492f2c84f5f6a436ac778aaeffd679b, 0x42b79ff6e1348a0c661f667f0b39f17b4e539ac01521a72da464b9b0ef902ecb97d708c1c0b43f46001c6, 0xf3923f8c0af98388a2f0ac962ff86ba38867750d12b7979a8180a3bdd1b0a83efa41052a763a4e6f236de, 0x90f0926150a92f0098089fd67a98bf4a02e7764ecedb54817087ba0376e16e400ce980a4d96807bdcf4d9),
    (0x52d5f8515ee3b2d43d40d7f758d081837bb19812832c7a1802a0909b788f050706d21a3bd1f1d29be189f, 0x43cb7f168bb42558f8d9b8797c0327efa8c5bf868ad05f9f639c30a70961670bb3871886f9dc37798cb03, 0xeb1fc729d83b7db1db8b42fc6bbd22edf6ad15f2d3ba87ba91fb065e81ffcbbbade3b3d1de455f92b4ed, 0x15e6b9fc71583359403b5f7172b50a2c23640bdd768b869060dde9a447f7fded3c3759ebf5f472ae8cdec),
    (0x84b68ccdef3f70092b83b433a79e0aced670dbfb67ddf55756dfb6f2cd91e67fc52c5e7d6f9d1e29, 0x6afba5c021841e3ba313f7246a62aaabf602297ee8a0a3d0daedcf8f7beb2a23147f320c4ce9c218, 0x2c1bafc3fdd76c78dd3f143f24d6544b1ad8207ce4b4816955170c731e9ac119e8c6313dd6c8d49a, 0x7df8a0b6776d61bedc784c9af0bb68bb9fc3dfa7a07a6d25703916689351e8d6f37bb7a73ba7fb26),
    (0xafa9cd78b828619d12f7aedfc1a7b36b789b2f798a64b91fe4b1f158c15595a463fd4cf0263, 0x1909e75d45f5219843ed2b71a50df59f16eab53cf4fb2589a9093152e4dd5becdb18a8c3456, 0x8d89fd633d280c8a1565f04a4e72854c509820686f7f863f3e3045f8ce7f25efed510d2f63b, 0x1cef41d59a033c0e347561691bfed989a88428940166e17425eae56e4e3ed9a0720547b7654),
    (0x39b4a7054e330f9392df4a31910db1460c6d98daa9c439d2c29aac2d8a1106a979, 0xe1a436e7cf2cfa49bbb8ef53c0ae0f4e569d7111e91d8318bf04e8c90871a7178, 0x36610c0b3190d97208b7bf029f54240448e47fb9af15221bf74876d68ab06add75, 0x182eb912f5e81528dce945cbefb47f54db4c49cb8f3a2ab0c919e4d9eac4acf0ac),
    (0x15eafa4f7fb228dc2283e8864ad861b7dceb16801b3bf9054b495d34be4cf405, 0x0, 0xf430558efb4e7ca7a4552005342b85a23d386f962fade59266540ca06f5a31e, 0x12e74ec5b0c2ed0082c21d2d1e1b62edb3860c1fc44fed907f3170271de065e8),
    (0x4dc1e19d441f0560d57159de35cf2cdf34fc616b8f5999a314ab9a61, 0x0, 0x149455201caf6c338cd26cb88888e8a721060e729e0aa9385e56fd98, 0x23ff48a96f32cf84236d83fbd9ac3a9092af83df687f87796bebde14),
    (0xe00223c0a54107448b3595b6b3060ee1f8419d61e7eee57, 0x0, 0x40881a73d8578304d52d83412d1dec6dd4013928974bb04, 0xb56191184f39320be589f56722b3c28893ed0734a40870d),
    (0x58ee03f95a311fa73d652f4561041abc80bdd1586a5, 0x1a94c9cefeea59d2ce96205b0c1227b61fba98914b2, 0x2095f5aaefa74f6c497c36c714ccfc2250a0b9b38f1, 0x24f1ac19800b380cc1942bdb5f2e5b8f84e931ebbda),
    (0x163b80fe568c47e9cf594cad327b5aa02ee9903e4db, 0x13a2b4c94b9d2006764a86b32b833209c3436ca842e, 0xc8917d684c393c51efe0231f56862961b84a510dce, 0x11d87fd0bcc896336a6c64357cde219e191f75b22b4),
    (0x40a7e6bf80dcf3f98276824883306ad7d2b9, 0xa430b6c913020f6199f49c8d604b4aa74c8, 0x2aa16c8a9d605a4cac01e6138bb8f74d083, 0x263a977a790197427cd8501004e3e9100c9c),
    (0x67730acc0161865c027011717f434a2ff49, 0x1330873662789238c5c4eb81d8c4a9bdb08, 0x5a6b6cc29bcb806ea39614b73c18f1f5314, 0x44a73f5ef140f3c3c49cec8325ad19bf74d),
    (0x12c4da7cb1870e0f9b9823aa133dd, 0x1267c1fbc34cee64a68fd7cd9553f, 0xa452cbbdf1aaaa5b1b4d535fabf3, 0xc2cdaccfa58017de73666c3861b4),
    (0x27f0bbc3f76f68fe5847a55, 0x14f0b9861ebfde0c356316, 0x213ad88f71bdcab7444f4b4, 0x1cb47dfe8ee4754a5ecb6f4)]

theorem nums384w_r_prime : Nat.Prime 39402006196394479212279040100143613805079739270465446667947266506191861115174655963485010977999089551199179622998457 :=
  Ecpp.chain_prime prime_4581064703951653 nums384w_r_chain (by decide +kernel) _ (List.mem_cons_self (a := (39402006196394479212279040100143613805079739270465446667947266506191861115174655963485010977999089551199179622998457, 38145353236632313509861782991670338292223101419502258962052391622968915614172359047063652688430489814360850047331614, 24616056845076563233783682189120803104976213556581352699746616228722156976945224253674839758312275618545242213709201, 32330667489201530619071867789996549828445638622485529246577137620496828889360996965181079005750535350716555685280566)))

end Verif.Rom
