import Verif.Common.Pocklington
import Mathlib.Tactic.NormNum.Prime
/-
Primality of moduli and group orders of ROM files, by Pocklington certificates (generated by a script;
the certificates are checked here by the kernel).
-/
namespace Verif.Rom

theorem prime_21258969373 : Nat.Prime 21258969373 :=
  pocklington _ [(541, 2), (3, 2), (3, 2), (3, 2), (3, 2), (2, 2), (2, 2)] (.cons (by norm_num) (.cons (by norm_num) (.cons (by norm_num) (.cons (by norm_num) (.cons (by norm_num) (.cons (by norm_num) (.cons (by norm_num) .nil))))))) (by decide +kernel)

theorem prime_79806171026243 : Nat.Prime 79806171026243 :=
  pocklington _ [(21258969373, 2)] (.cons prime_21258969373 .nil) (by decide +kernel)

theorem prime_1468547 : Nat.Prime 1468547 :=
  pocklington _ [(734273, 2)] (.cons (by norm_num) .nil) (by decide +kernel)

theorem prime_2575831439 : Nat.Prime 2575831439 :=
  pocklington _ [(1468547, 2)] (.cons prime_1468547 .nil) (by decide +kernel)

theorem prime_187_340093581 : Nat.Prime 112356767778179104648003230782815205059434761578340093581 :=
  pocklington _ [(79806171026243, 2), (2575831439, 2), (2293, 2), (5, 2), (3, 2), (2, 2)] (.cons prime_79806171026243 (.cons prime_2575831439 (.cons (by norm_num) (.cons (by norm_num) (.cons (by norm_num) (.cons (by norm_num) .nil)))))) (by decide +kernel)

theorem prime_255_11196929 : Nat.Prime 54727285665848639308835362515367564072984674823934369078600661778098011196929 :=
  pocklington _ [(112356767778179104648003230782815205059434761578340093581, 2), (2, 3), (2, 3), (2, 3), (2, 3), (2, 3), (2, 3), (2, 3), (2, 3)] (.cons prime_187_340093581 (.cons (by norm_num) (.cons (by norm_num) (.cons (by norm_num) (.cons (by norm_num) (.cons (by norm_num) (.cons (by norm_num) (.cons (by norm_num) (.cons (by norm_num) .nil))))))))) (by decide +kernel)

theorem prime_256_22393859 : Nat.Prime 109454571331697278617670725030735128145969349647868738157201323556196022393859 :=
  pocklington _ [(54727285665848639308835362515367564072984674823934369078600661778098011196929, 2)] (.cons prime_255_11196929 .nil) (by decide +kernel)

theorem prime_5315399 : Nat.Prime 5315399 :=
  pocklington _ [(307, 2), (11, 2)] (.cons (by norm_num) (.cons (by norm_num) .nil)) (by decide +kernel)

theorem prime_548794774797769816735663 : Nat.Prime 548794774797769816735663 :=
  pocklington _ [(5315399, 2), (4079, 2), (1087, 2), (3, 2)] (.cons prime_5315399 (.cons (by norm_num) (.cons (by norm_num) (.cons (by norm_num) .nil)))) (by decide +kernel)

theorem prime_131_107660393 : Nat.Prime 1720805198043061735464389957585107660393 :=
  pocklington _ [(548794774797769816735663, 2), (2, 5), (2, 5)] (.cons prime_548794774797769816735663 (.cons (by norm_num) (.cons (by norm_num) .nil))) (by decide +kernel)

theorem prime_187_88564991 : Nat.Prime 160847769765829662053086933326768494988741892623088564991 :=
  pocklington _ [(1720805198043061735464389957585107660393, 2)] (.cons prime_131_107660393 .nil) (by decide +kernel)

theorem prime_256_79563233 : Nat.Prime 109454571331697278617670725030735128146004546811402412653072203207726079563233 :=
  pocklington _ [(160847769765829662053086933326768494988741892623088564991, 2), (2, 5), (2, 5), (2, 5), (2, 5)] (.cons prime_187_88564991 (.cons (by norm_num) (.cons (by norm_num) (.cons (by norm_num) (.cons (by norm_num) .nil))))) (by decide +kernel)

theorem prime_213870139913 : Nat.Prime 213870139913 :=
  pocklington _ [(73, 2), (43, 2), (13, 2), (11, 2), (2, 3), (2, 3)] (.cons (by norm_num) (.cons (by norm_num) (.cons (by norm_num) (.cons (by norm_num) (.cons (by norm_num) (.cons (by norm_num) .nil)))))) (by decide +kernel)

theorem prime_364653293694743087 : Nat.Prime 364653293694743087 :=
  pocklington _ [(213870139913, 2)] (.cons prime_213870139913 .nil) (by decide +kernel)

theorem prime_103_564604717 : Nat.Prime 5387260613906346625767564604717 :=
  pocklington _ [(364653293694743087, 2), (2, 2)] (.cons prime_364653293694743087 (.cons (by norm_num) .nil)) (by decide +kernel)

theorem prime_32276287736947648181 : Nat.Prime 32276287736947648181 :=
  pocklington _ [(410857, 2), (2131, 2), (5, 2), (2, 2)] (.cons (by norm_num) (.cons (by norm_num) (.cons (by norm_num) (.cons (by norm_num) .nil)))) (by decide +kernel)

theorem prime_34569593 : Nat.Prime 34569593 :=
  pocklington _ [(100493, 2), (2, 3), (2, 3)] (.cons (by norm_num) (.cons (by norm_num) (.cons (by norm_num) .nil))) (by decide +kernel)

theorem prime_23265761 : Nat.Prime 23265761 :=
  pocklington _ [(20773, 2), (2, 3), (2, 3), (2, 3), (2, 3)] (.cons (by norm_num) (.cons (by norm_num) (.cons (by norm_num) (.cons (by norm_num) (.cons (by norm_num) .nil))))) (by decide +kernel)

theorem prime_479_979116331 : Nat.Prime 1040900498021002611179702882732475821643265145578221336337636397648855163269125469969317564511395413481498236848034931080377568957433458979116331 :=
  pocklington _ [(5387260613906346625767564604717, 2), (32276287736947648181, 2), (34569593, 2), (23265761, 2), (349, 2), (101, 2), (7, 2), (5, 2), (3, 2), (2, 2)] (.cons prime_103_564604717 (.cons prime_32276287736947648181 (.cons prime_34569593 (.cons prime_23265761 (.cons (by norm_num) (.cons (by norm_num) (.cons (by norm_num) (.cons (by norm_num) (.cons (by norm_num) (.cons (by norm_num) .nil)))))))))) (by decide +kernel)

theorem prime_385_416473601 : Nat.Prime 39411628175557697617090394197952197801542843954260125585649332611866166173671941728410546111990041923305187416473601 :=
  pocklington _ [(193183, 2), (193183, 2), (193183, 2), (103, 2), (103, 2), (103, 2), (103, 2), (103, 2), (103, 2), (103, 2), (101, 2), (61, 2), (37, 2), (37, 2), (37, 2), (37, 2), (29, 2), (29, 2), (29, 2), (29, 2), (11, 2), (7, 2), (5, 2), (5, 2), (3, 2), (2, 13), (2, 13), (2, 13), (2, 13), (2, 13), (2, 13), (2, 13), (2, 13), (2, 13), (2, 13), (2, 13), (2, 13), (2, 13), (2, 13), (2, 13), (2, 13), (2, 13), (2, 13), (2, 13), (2, 13), (2, 13), (2, 13), (2, 13), (2, 13), (2, 13), (2, 13), (2, 13), (2, 13)] (.cons (by norm_num) (.cons (by norm_num) (.cons (by norm_num) (.cons (by norm_num) (.cons (by norm_num) (.cons (by norm_num) (.cons (by norm_num) (.cons (by norm_num) (.cons (by norm_num) (.cons (by norm_num) (.cons (by norm_num) (.cons (by norm_num) (.cons (by norm_num) (.cons (by norm_num) (.cons (by norm_num) (.cons (by norm_num) (.cons (by norm_num) (.cons (by norm_num) (.cons (by norm_num) (.cons (by norm_num) (.cons (by norm_num) (.cons (by norm_num) (.cons (by norm_num) (.cons (by norm_num) (.cons (by norm_num) (.cons (by norm_num) (.cons (by norm_num) (.cons (by norm_num) (.cons (by norm_num) (.cons (by norm_num) (.cons (by norm_num) (.cons (by norm_num) (.cons (by norm_num) (.cons (by norm_num) (.cons (by norm_num) (.cons (by norm_num) (.cons (by norm_num) (.cons (by norm_num) (.cons (by norm_num) (.cons (by norm_num) (.cons (by norm_num) (.cons (by norm_num) (.cons (by norm_num) (.cons (by norm_num) (.cons (by norm_num) (.cons (by norm_num) (.cons (by norm_num) (.cons (by norm_num) (.cons (by norm_num) (.cons (by norm_num) (.cons (by norm_num) (.cons (by norm_num) (.cons (by norm_num) .nil))))))))))))))))))))))))))))))))))))))))))))))))))))) (by decide +kernel)

theorem prime_3819663927398918131021 : Nat.Prime 3819663927398918131021 :=
  pocklington _ [(755057, 2), (113, 2), (19, 2), (5, 3), (3, 3), (2, 2), (2, 2)] (.cons (by norm_num) (.cons (by norm_num) (.cons (by norm_num) (.cons (by norm_num) (.cons (by norm_num) (.cons (by norm_num) (.cons (by norm_num) .nil))))))) (by decide +kernel)

theorem prime_120_386709967 : Nat.Prime 1125266252156850182658904441386709967 :=
  pocklington _ [(3819663927398918131021, 2)] (.cons prime_3819663927398918131021 .nil) (by decide +kernel)

theorem prime_234_827714659 : Nat.Prime 15778400344354997994418419698270088123916926905054652752758194827714659 :=
  pocklington _ [(1125266252156850182658904441386709967, 2)] (.cons prime_120_386709967 .nil) (by decide +kernel)

theorem prime_381_272559787 : Nat.Prime 4002409555221667393417789825735904156556882819939007885332058136124031650490837864442687629129015664037894272559787 :=
  pocklington _ [(15778400344354997994418419698270088123916926905054652752758194827714659, 2), (3, 2)] (.cons prime_234_827714659 (.cons (by norm_num) .nil)) (by decide +kernel)

theorem prime_2529403 : Nat.Prime 2529403 :=
  pocklington _ [(18329, 2)] (.cons (by norm_num) .nil) (by decide +kernel)

theorem prime_2508409 : Nat.Prime 2508409 :=
  pocklington _ [(7, 2), (3, 2), (3, 2), (3, 2), (3, 2), (2, 11), (2, 11)] (.cons (by norm_num) (.cons (by norm_num) (.cons (by norm_num) (.cons (by norm_num) (.cons (by norm_num) (.cons (by norm_num) (.cons (by norm_num) .nil))))))) (by decide +kernel)

theorem prime_255_581184513 : Nat.Prime 52435875175126190479447740508185965837690552500527637822603658699938581184513 :=
  pocklington _ [(2529403, 2), (2508409, 2), (859267, 2), (125527, 2), (10177, 2), (11, 2), (2, 5), (2, 5), (2, 5), (2, 5), (2, 5), (2, 5), (2, 5), (2, 5), (2, 5), (2, 5), (2, 5), (2, 5), (2, 5), (2, 5), (2, 5), (2, 5), (2, 5), (2, 5), (2, 5), (2, 5), (2, 5), (2, 5), (2, 5), (2, 5), (2, 5), (2, 5), (2, 5), (2, 5), (2, 5), (2, 5), (2, 5), (2, 5)] (.cons prime_2529403 (.cons prime_2508409 (.cons (by norm_num) (.cons (by norm_num) (.cons (by norm_num) (.cons (by norm_num) (.cons (by norm_num) (.cons (by norm_num) (.cons (by norm_num) (.cons (by norm_num) (.cons (by norm_num) (.cons (by norm_num) (.cons (by norm_num) (.cons (by norm_num) (.cons (by norm_num) (.cons (by norm_num) (.cons (by norm_num) (.cons (by norm_num) (.cons (by norm_num) (.cons (by norm_num) (.cons (by norm_num) (.cons (by norm_num) (.cons (by norm_num) (.cons (by norm_num) (.cons (by norm_num) (.cons (by norm_num) (.cons (by norm_num) (.cons (by norm_num) (.cons (by norm_num) (.cons (by norm_num) (.cons (by norm_num) (.cons (by norm_num) (.cons (by norm_num) (.cons (by norm_num) (.cons (by norm_num) (.cons (by norm_num) (.cons (by norm_num) (.cons (by norm_num) .nil)))))))))))))))))))))))))))))))))))))) (by decide +kernel)

theorem prime_37960723561538521 : Nat.Prime 37960723561538521 :=
  pocklington _ [(2417, 2), (197, 2), (53, 2), (3, 5), (2, 11), (2, 11)] (.cons (by norm_num) (.cons (by norm_num) (.cons (by norm_num) (.cons (by norm_num) (.cons (by norm_num) (.cons (by norm_num) .nil)))))) (by decide +kernel)

theorem prime_68557066752138568927 : Nat.Prime 68557066752138568927 :=
  pocklington _ [(37960723561538521, 2)] (.cons prime_37960723561538521 .nil) (by decide +kernel)

theorem prime_21988019 : Nat.Prime 21988019 :=
  pocklington _ [(6659, 2)] (.cons (by norm_num) .nil) (by decide +kernel)

theorem prime_245_249659741 : Nat.Prime 35459692205341752615380188656120955597215361713484045031752675407249659741 :=
  pocklington _ [(68557066752138568927, 2), (21988019, 2), (21317, 2), (13001, 2), (5, 2), (2, 2), (2, 2)] (.cons prime_68557066752138568927 (.cons prime_21988019 (.cons (by norm_num) (.cons (by norm_num) (.cons (by norm_num) (.cons (by norm_num) (.cons (by norm_num) .nil))))))) (by decide +kernel)

theorem prime_383_338464427 : Nat.Prime 13143624632111687734396218524029004720845126870820156444247788574162855139416800818697211380413727823476285338464427 :=
  pocklington _ [(35459692205341752615380188656120955597215361713484045031752675407249659741, 2), (3, 2)] (.cons prime_245_249659741 (.cons (by norm_num) .nil)) (by decide +kernel)

theorem prime_19759777 : Nat.Prime 19759777 :=
  pocklington _ [(5563, 2), (2, 5), (2, 5), (2, 5), (2, 5)] (.cons (by norm_num) (.cons (by norm_num) (.cons (by norm_num) (.cons (by norm_num) (.cons (by norm_num) .nil))))) (by decide +kernel)

theorem prime_144253367061059 : Nat.Prime 144253367061059 :=
  pocklington _ [(19759777, 2)] (.cons prime_19759777 .nil) (by decide +kernel)

theorem prime_4474159 : Nat.Prime 4474159 :=
  pocklington _ [(3019, 2)] (.cons (by norm_num) .nil) (by decide +kernel)

theorem prime_152121407 : Nat.Prime 152121407 :=
  pocklington _ [(4474159, 2)] (.cons prime_4474159 .nil) (by decide +kernel)

theorem prime_4630575629081 : Nat.Prime 4630575629081 :=
  pocklington _ [(152121407, 2), (2, 3), (2, 3)] (.cons prime_152121407 (.cons (by norm_num) (.cons (by norm_num) .nil))) (by decide +kernel)

theorem prime_257_489684993 : Nat.Prime 115848638697272667145794417268073757960001407039087633408816076049920489684993 :=
  pocklington _ [(144253367061059, 2), (4630575629081, 2), (89, 2), (53, 2), (11, 2), (11, 2), (7, 2), (2, 5), (2, 5), (2, 5), (2, 5), (2, 5), (2, 5), (2, 5), (2, 5), (2, 5), (2, 5), (2, 5), (2, 5), (2, 5), (2, 5), (2, 5), (2, 5), (2, 5)] (.cons prime_144253367061059 (.cons prime_4630575629081 (.cons (by norm_num) (.cons (by norm_num) (.cons (by norm_num) (.cons (by norm_num) (.cons (by norm_num) (.cons (by norm_num) (.cons (by norm_num) (.cons (by norm_num) (.cons (by norm_num) (.cons (by norm_num) (.cons (by norm_num) (.cons (by norm_num) (.cons (by norm_num) (.cons (by norm_num) (.cons (by norm_num) (.cons (by norm_num) (.cons (by norm_num) (.cons (by norm_num) (.cons (by norm_num) (.cons (by norm_num) (.cons (by norm_num) (.cons (by norm_num) .nil)))))))))))))))))))))))) (by decide +kernel)

theorem prime_8862349 : Nat.Prime 8862349 :=
  pocklington _ [(67139, 2), (2, 2)] (.cons (by norm_num) (.cons (by norm_num) .nil)) (by decide +kernel)

theorem prime_1611325054747457627 : Nat.Prime 1611325054747457627 :=
  pocklington _ [(8862349, 2), (647, 2)] (.cons prime_8862349 (.cons (by norm_num) .nil)) (by decide +kernel)

theorem prime_2339479759689028832512486669 : Nat.Prime 2339479759689028832512486669 :=
  pocklington _ [(1611325054747457627, 2), (83, 2), (2, 2)] (.cons prime_1611325054747457627 (.cons (by norm_num) (.cons (by norm_num) .nil))) (by decide +kernel)

theorem prime_54899348224701391 : Nat.Prime 54899348224701391 :=
  pocklington _ [(7841, 2), (131, 2), (53, 2), (3, 3), (2, 3)] (.cons (by norm_num) (.cons (by norm_num) (.cons (by norm_num) (.cons (by norm_num) (.cons (by norm_num) .nil))))) (by decide +kernel)

theorem prime_7195986967900959526717 : Nat.Prime 7195986967900959526717 :=
  pocklington _ [(54899348224701391, 2), (3, 2), (2, 2)] (.cons prime_54899348224701391 (.cons (by norm_num) (.cons (by norm_num) .nil))) (by decide +kernel)

theorem prime_6689047009 : Nat.Prime 6689047009 :=
  pocklington _ [(242779, 2), (2, 11), (2, 11), (2, 11), (2, 11)] (.cons (by norm_num) (.cons (by norm_num) (.cons (by norm_num) (.cons (by norm_num) (.cons (by norm_num) .nil))))) (by decide +kernel)

theorem prime_461_740276907 : Nat.Prime 3969508375500863470560772059146634051800057393085754326046523646985852496169198543994841284697713271737768244168253401239242781720740276907 :=
  pocklington _ [(2339479759689028832512486669, 2), (7195986967900959526717, 2), (6689047009, 2), (72227, 2), (661, 2), (7, 2), (3, 2), (3, 2), (3, 2), (2, 2)] (.cons prime_2339479759689028832512486669 (.cons prime_7195986967900959526717 (.cons prime_6689047009 (.cons (by norm_num) (.cons (by norm_num) (.cons (by norm_num) (.cons (by norm_num) (.cons (by norm_num) (.cons (by norm_num) (.cons (by norm_num) .nil)))))))))) (by decide +kernel)

theorem prime_11023487 : Nat.Prime 11023487 :=
  pocklington _ [(239641, 2)] (.cons (by norm_num) .nil) (by decide +kernel)

theorem prime_2193041 : Nat.Prime 2193041 :=
  pocklington _ [(79, 2), (5, 3), (2, 3), (2, 3), (2, 3)] (.cons (by norm_num) (.cons (by norm_num) (.cons (by norm_num) (.cons (by norm_num) (.cons (by norm_num) .nil))))) (by decide +kernel)

theorem prime_308_268303361 : Nat.Prime 521481194400158902870293791036394582812650143983424074083311820261824039635303638490268303361 :=
  pocklington _ [(11023487, 2), (2193041, 2), (89449, 2), (89449, 2), (251, 2), (5, 2), (3, 2), (2, 11), (2, 11), (2, 11), (2, 11), (2, 11), (2, 11), (2, 11), (2, 11), (2, 11), (2, 11), (2, 11), (2, 11), (2, 11), (2, 11), (2, 11), (2, 11), (2, 11), (2, 11), (2, 11), (2, 11), (2, 11), (2, 11), (2, 11), (2, 11), (2, 11), (2, 11), (2, 11), (2, 11), (2, 11), (2, 11), (2, 11), (2, 11), (2, 11), (2, 11), (2, 11), (2, 11), (2, 11), (2, 11), (2, 11), (2, 11), (2, 11), (2, 11), (2, 11), (2, 11), (2, 11), (2, 11), (2, 11), (2, 11), (2, 11), (2, 11), (2, 11), (2, 11), (2, 11), (2, 11), (2, 11), (2, 11), (2, 11), (2, 11), (2, 11), (2, 11), (2, 11), (2, 11), (2, 11), (2, 11), (2, 11)] (.cons prime_11023487 (.cons prime_2193041 (.cons (by norm_num) (.cons (by norm_num) (.cons (by norm_num) (.cons (by norm_num) (.cons (by norm_num) (.cons (by norm_num) (.cons (by norm_num) (.cons (by norm_num) (.cons (by norm_num) (.cons (by norm_num) (.cons (by norm_num) (.cons (by norm_num) (.cons (by norm_num) (.cons (by norm_num) (.cons (by norm_num) (.cons (by norm_num) (.cons (by norm_num) (.cons (by norm_num) (.cons (by norm_num) (.cons (by norm_num) (.cons (by norm_num) (.cons (by norm_num) (.cons (by norm_num) (.cons (by norm_num) (.cons (by norm_num) (.cons (by norm_num) (.cons (by norm_num) (.cons (by norm_num) (.cons (by norm_num) (.cons (by norm_num) (.cons (by norm_num) (.cons (by norm_num) (.cons (by norm_num) (.cons (by norm_num) (.cons (by norm_num) (.cons (by norm_num) (.cons (by norm_num) (.cons (by norm_num) (.cons (by norm_num) (.cons (by norm_num) (.cons (by norm_num) (.cons (by norm_num) (.cons (by norm_num) (.cons (by norm_num) (.cons (by norm_num) (.cons (by norm_num) (.cons (by norm_num) (.cons (by norm_num) (.cons (by norm_num) (.cons (by norm_num) (.cons (by norm_num) (.cons (by norm_num) (.cons (by norm_num) (.cons (by norm_num) (.cons (by norm_num) (.cons (by norm_num) (.cons (by norm_num) (.cons (by norm_num) (.cons (by norm_num) (.cons (by norm_num) (.cons (by norm_num) (.cons (by norm_num) (.cons (by norm_num) (.cons (by norm_num) (.cons (by norm_num) (.cons (by norm_num) (.cons (by norm_num) (.cons (by norm_num) (.cons (by norm_num) (.cons (by norm_num) .nil)))))))))))))))))))))))))))))))))))))))))))))))))))))))))))))))))))))))) (by decide +kernel)

theorem prime_896472825551 : Nat.Prime 896472825551 :=
  pocklington _ [(1601, 2), (641, 2), (5, 2)] (.cons (by norm_num) (.cons (by norm_num) (.cons (by norm_num) .nil))) (by decide +kernel)

theorem prime_86061391252897 : Nat.Prime 86061391252897 :=
  pocklington _ [(896472825551, 2), (2, 5), (2, 5), (2, 5), (2, 5)] (.cons prime_896472825551 (.cons (by norm_num) (.cons (by norm_num) (.cons (by norm_num) (.cons (by norm_num) .nil))))) (by decide +kernel)

theorem prime_8840745601 : Nat.Prime 8840745601 :=
  pocklington _ [(19, 2), (5, 2), (5, 2), (3, 3), (2, 11), (2, 11), (2, 11), (2, 11), (2, 11), (2, 11), (2, 11)] (.cons (by norm_num) (.cons (by norm_num) (.cons (by norm_num) (.cons (by norm_num) (.cons (by norm_num) (.cons (by norm_num) (.cons (by norm_num) (.cons (by norm_num) (.cons (by norm_num) (.cons (by norm_num) (.cons (by norm_num) .nil))))))))))) (by decide +kernel)

theorem prime_212_39605017 : Nat.Prime 5132957017600251877980083461264069966615180325441829531039605017 :=
  pocklington _ [(86061391252897, 2), (8840745601, 2), (405577, 2), (29, 2), (3, 2), (2, 5), (2, 5)] (.cons prime_86061391252897 (.cons prime_8840745601 (.cons (by norm_num) (.cons (by norm_num) (.cons (by norm_num) (.cons (by norm_num) (.cons (by norm_num) .nil))))))) (by decide +kernel)

theorem prime_335_885901203 : Nat.Prime 40472947179444798069814489103499437927968287166102324320331555473947460893068638192222364975885901203 :=
  pocklington _ [(5132957017600251877980083461264069966615180325441829531039605017, 2)] (.cons prime_212_39605017 .nil) (by decide +kernel)

theorem prime_556_384423947 : Nat.Prime 233194339376101037683456139711834660997833647422872541994829976099491814911069288411539378039968322912999327077748227536339287546307232735849508585660591526690384423947 :=
  pocklington _ [(40472947179444798069814489103499437927968287166102324320331555473947460893068638192222364975885901203, 2), (3, 2)] (.cons prime_335_885901203 (.cons (by norm_num) .nil)) (by decide +kernel)

theorem prime_496_400000001 : Nat.Prime 156824053407986303493102734259327628353330491704238988247898401340024878399962310085016800871470894081233321823498553042616146703390104512102400000001 :=
  pocklington _ [(4987, 2), (4987, 2), (4987, 2), (4987, 2), (4987, 2), (4987, 2), (4987, 2), (2647, 2), (2647, 2), (2647, 2), (2647, 2), (2647, 2), (2647, 2), (2647, 2), (353, 2), (313, 2), (41, 2), (5, 2), (5, 2), (5, 2), (5, 2), (5, 2), (5, 2), (5, 2), (5, 2), (3, 2), (2, 7), (2, 7), (2, 7), (2, 7), (2, 7), (2, 7), (2, 7), (2, 7), (2, 7), (2, 7), (2, 7), (2, 7), (2, 7), (2, 7), (2, 7), (2, 7), (2, 7), (2, 7), (2, 7), (2, 7), (2, 7), (2, 7), (2, 7), (2, 7), (2, 7), (2, 7), (2, 7), (2, 7), (2, 7), (2, 7), (2, 7), (2, 7), (2, 7), (2, 7), (2, 7), (2, 7), (2, 7), (2, 7), (2, 7), (2, 7)] (.cons (by norm_num) (.cons (by norm_num) (.cons (by norm_num) (.cons (by norm_num) (.cons (by norm_num) (.cons (by norm_num) (.cons (by norm_num) (.cons (by norm_num) (.cons (by norm_num) (.cons (by norm_num) (.cons (by norm_num) (.cons (by norm_num) (.cons (by norm_num) (.cons (by norm_num) (.cons (by norm_num) (.cons (by norm_num) (.cons (by norm_num) (.cons (by norm_num) (.cons (by norm_num) (.cons (by norm_num) (.cons (by norm_num) (.cons (by norm_num) (.cons (by norm_num) (.cons (by norm_num) (.cons (by norm_num) (.cons (by norm_num) (.cons (by norm_num) (.cons (by norm_num) (.cons (by norm_num) (.cons (by norm_num) (.cons (by norm_num) (.cons (by norm_num) (.cons (by norm_num) (.cons (by norm_num) (.cons (by norm_num) (.cons (by norm_num) (.cons (by norm_num) (.cons (by norm_num) (.cons (by norm_num) (.cons (by norm_num) (.cons (by norm_num) (.cons (by norm_num) (.cons (by norm_num) (.cons (by norm_num) (.cons (by norm_num) (.cons (by norm_num) (.cons (by norm_num) (.cons (by norm_num) (.cons (by norm_num) (.cons (by norm_num) (.cons (by norm_num) (.cons (by norm_num) (.cons (by norm_num) (.cons (by norm_num) (.cons (by norm_num) (.cons (by norm_num) (.cons (by norm_num) (.cons (by norm_num) (.cons (by norm_num) (.cons (by norm_num) (.cons (by norm_num) (.cons (by norm_num) (.cons (by norm_num) (.cons (by norm_num) (.cons (by norm_num) (.cons (by norm_num) .nil)))))))))))))))))))))))))))))))))))))))))))))))))))))))))))))))))) (by decide +kernel)

theorem prime_5994341377 : Nat.Prime 5994341377 :=
  pocklington _ [(419, 2), (2, 5), (2, 5), (2, 5), (2, 5), (2, 5), (2, 5), (2, 5), (2, 5), (2, 5)] (.cons (by norm_num) (.cons (by norm_num) (.cons (by norm_num) (.cons (by norm_num) (.cons (by norm_num) (.cons (by norm_num) (.cons (by norm_num) (.cons (by norm_num) (.cons (by norm_num) (.cons (by norm_num) .nil)))))))))) (by decide +kernel)

theorem prime_2749283 : Nat.Prime 2749283 :=
  pocklington _ [(59, 2), (23, 2), (2, 2)] (.cons (by norm_num) (.cons (by norm_num) (.cons (by norm_num) .nil))) (by decide +kernel)

theorem prime_65982793 : Nat.Prime 65982793 :=
  pocklington _ [(2749283, 2), (2, 5), (2, 5)] (.cons prime_2749283 (.cons (by norm_num) (.cons (by norm_num) .nil))) (by decide +kernel)

theorem prime_15698303 : Nat.Prime 15698303 :=
  pocklington _ [(29179, 2)] (.cons (by norm_num) .nil) (by decide +kernel)

theorem prime_254_753864723 : Nat.Prime 16798108731015832284940804142231733909889187121439069848933715426072753864723 :=
  pocklington _ [(5994341377, 2), (65982793, 2), (15698303, 2), (1033337, 2), (71693, 2), (7, 3), (3, 2), (3, 2), (3, 2), (2, 2)] (.cons prime_5994341377 (.cons prime_65982793 (.cons prime_15698303 (.cons (by norm_num) (.cons (by norm_num) (.cons (by norm_num) (.cons (by norm_num) (.cons (by norm_num) (.cons (by norm_num) (.cons (by norm_num) .nil)))))))))) (by decide +kernel)

theorem prime_1176035613847 : Nat.Prime 1176035613847 :=
  pocklington _ [(25969, 2), (73, 2)] (.cons (by norm_num) (.cons (by norm_num) .nil)) (by decide +kernel)

theorem prime_101148471075752777 : Nat.Prime 101148471075752777 :=
  pocklington _ [(1176035613847, 2), (2, 3), (2, 3)] (.cons prime_1176035613847 (.cons (by norm_num) (.cons (by norm_num) .nil))) (by decide +kernel)

theorem prime_254_570215949 : Nat.Prime 16798108731015832284940804142231733909759579603404752749028378864165570215949 :=
  pocklington _ [(101148471075752777, 2), (15698303, 2), (140977, 2), (16843, 2), (641, 2), (7, 2), (3, 2), (2, 2), (2, 2)] (.cons prime_101148471075752777 (.cons prime_15698303 (.cons (by norm_num) (.cons (by norm_num) (.cons (by norm_num) (.cons (by norm_num) (.cons (by norm_num) (.cons (by norm_num) (.cons (by norm_num) .nil))))))))) (by decide +kernel)

theorem prime_147448406761 : Nat.Prime 147448406761 :=
  pocklington _ [(569, 2), (523, 2), (2, 7), (2, 7)] (.cons (by norm_num) (.cons (by norm_num) (.cons (by norm_num) (.cons (by norm_num) .nil)))) (by decide +kernel)

theorem prime_2359174508177 : Nat.Prime 2359174508177 :=
  pocklington _ [(147448406761, 2), (2, 3), (2, 3), (2, 3)] (.cons prime_147448406761 (.cons (by norm_num) (.cons (by norm_num) (.cons (by norm_num) .nil)))) (by decide +kernel)

theorem prime_835147775894659 : Nat.Prime 835147775894659 :=
  pocklington _ [(2359174508177, 2)] (.cons prime_2359174508177 .nil) (by decide +kernel)

theorem prime_18373251069682499 : Nat.Prime 18373251069682499 :=
  pocklington _ [(835147775894659, 2)] (.cons prime_835147775894659 .nil) (by decide +kernel)

theorem prime_376841297722951 : Nat.Prime 376841297722951 :=
  pocklington _ [(6367, 2), (571, 2), (5, 3), (3, 2), (3, 2)] (.cons (by norm_num) (.cons (by norm_num) (.cons (by norm_num) (.cons (by norm_num) (.cons (by norm_num) .nil))))) (by decide +kernel)

theorem prime_254_620231603 : Nat.Prime 16283262549886230019726996094938013714788842227227418772989111988905620231603 :=
  pocklington _ [(18373251069682499, 2), (376841297722951, 2), (251, 2), (59, 2), (29, 2), (3, 2), (3, 2), (3, 2), (2, 2)] (.cons prime_18373251069682499 (.cons prime_376841297722951 (.cons (by norm_num) (.cons (by norm_num) (.cons (by norm_num) (.cons (by norm_num) (.cons (by norm_num) (.cons (by norm_num) (.cons (by norm_num) .nil))))))))) (by decide +kernel)

theorem prime_94990455029 : Nat.Prime 94990455029 :=
  pocklington _ [(466069, 2), (2, 2)] (.cons (by norm_num) (.cons (by norm_num) .nil)) (by decide +kernel)

theorem prime_1139885460349 : Nat.Prime 1139885460349 :=
  pocklington _ [(94990455029, 2), (2, 2)] (.cons prime_94990455029 (.cons (by norm_num) .nil)) (by decide +kernel)

theorem prime_449114871377507 : Nat.Prime 449114871377507 :=
  pocklington _ [(1139885460349, 2)] (.cons prime_1139885460349 .nil) (by decide +kernel)

theorem prime_147_658649737 : Nat.Prime 124577430183157255835425871648661633658649737 :=
  pocklington _ [(449114871377507, 2), (13159, 2), (97, 2), (3, 3), (2, 5), (2, 5), (2, 5)] (.cons prime_449114871377507 (.cons (by norm_num) (.cons (by norm_num) (.cons (by norm_num) (.cons (by norm_num) (.cons (by norm_num) (.cons (by norm_num) .nil))))))) (by decide +kernel)

theorem prime_254_88543597 : Nat.Prime 16283262549886230019726996094938013714661236339628584878026821447931088543597 :=
  pocklington _ [(124577430183157255835425871648661633658649737, 2), (2, 2)] (.cons prime_147_658649737 (.cons (by norm_num) .nil)) (by decide +kernel)

theorem prime_151499460061 : Nat.Prime 151499460061 :=
  pocklington _ [(2851, 2), (5, 2), (3, 2), (3, 2), (2, 2), (2, 2)] (.cons (by norm_num) (.cons (by norm_num) (.cons (by norm_num) (.cons (by norm_num) (.cons (by norm_num) (.cons (by norm_num) .nil)))))) (by decide +kernel)

theorem prime_10434257 : Nat.Prime 10434257 :=
  pocklington _ [(13309, 2), (7, 2), (2, 3), (2, 3), (2, 3)] (.cons (by norm_num) (.cons (by norm_num) (.cons (by norm_num) (.cons (by norm_num) (.cons (by norm_num) .nil))))) (by decide +kernel)

theorem prime_187816627 : Nat.Prime 187816627 :=
  pocklington _ [(10434257, 2), (3, 2)] (.cons prime_10434257 (.cons (by norm_num) .nil)) (by decide +kernel)

theorem prime_116_974736893 : Nat.Prime 49712609355733181957277501974736893 :=
  pocklington _ [(151499460061, 2), (187816627, 2), (2, 2)] (.cons prime_151499460061 (.cons prime_187816627 (.cons (by norm_num) .nil))) (by decide +kernel)

theorem prime_191_167530247 : Nat.Prime 3059213862715144055733503214373292934438943635608167530247 :=
  pocklington _ [(49712609355733181957277501974736893, 2), (3, 2), (3, 2)] (.cons prime_116_974736893 (.cons (by norm_num) (.cons (by norm_num) .nil))) (by decide +kernel)

theorem prime_256_516197751 : Nat.Prime 76884956397045344220809746629001649093037950200943055203735601445031516197751 :=
  pocklington _ [(3059213862715144055733503214373292934438943635608167530247, 2), (5, 2), (5, 2)] (.cons prime_191_167530247 (.cons (by norm_num) (.cons (by norm_num) .nil))) (by decide +kernel)

theorem prime_41802583 : Nat.Prime 41802583 :=
  pocklington _ [(50123, 2)] (.cons (by norm_num) .nil) (by decide +kernel)

theorem prime_1674656872585139 : Nat.Prime 1674656872585139 :=
  pocklington _ [(41802583, 2)] (.cons prime_41802583 .nil) (by decide +kernel)

theorem prime_190455129210693390224369129 : Nat.Prime 190455129210693390224369129 :=
  pocklington _ [(1674656872585139, 2), (23, 2), (2, 3), (2, 3)] (.cons prime_1674656872585139 (.cons (by norm_num) (.cons (by norm_num) (.cons (by norm_num) .nil)))) (by decide +kernel)

theorem prime_157_591020381 : Nat.Prime 114430077720284863765762092766225391679591020381 :=
  pocklington _ [(190455129210693390224369129, 2), (2, 2)] (.cons prime_190455129210693390224369129 (.cons (by norm_num) .nil)) (by decide +kernel)

theorem prime_252_974242171 : Nat.Prime 4271386466502519123378319257166758282929862876911918307708639947947974242171 :=
  pocklington _ [(114430077720284863765762092766225391679591020381, 2)] (.cons prime_157_591020381 .nil) (by decide +kernel)

theorem prime_256_536359079 : Nat.Prime 76884956397045344220809746629001649092737531784414529538755519063063536359079 :=
  pocklington _ [(4271386466502519123378319257166758282929862876911918307708639947947974242171, 2), (3, 3)] (.cons prime_252_974242171 (.cons (by norm_num) .nil)) (by decide +kernel)

theorem prime_31757755568855353 : Nat.Prime 31757755568855353 :=
  pocklington _ [(4153, 2), (107, 2), (31, 2), (3, 2), (2, 5), (2, 5), (2, 5)] (.cons (by norm_num) (.cons (by norm_num) (.cons (by norm_num) (.cons (by norm_num) (.cons (by norm_num) (.cons (by norm_num) (.cons (by norm_num) .nil))))))) (by decide +kernel)

theorem prime_1923133 : Nat.Prime 1923133 :=
  pocklington _ [(3727, 2), (2, 2)] (.cons (by norm_num) (.cons (by norm_num) .nil)) (by decide +kernel)

theorem prime_236_754340907 : Nat.Prime 74058212732561358302231226437062788676166966415465897661863160754340907 :=
  pocklington _ [(31757755568855353, 2), (1923133, 2), (132049, 2), (57467, 2), (353, 2), (2, 2)] (.cons prime_31757755568855353 (.cons prime_1923133 (.cons (by norm_num) (.cons (by norm_num) (.cons (by norm_num) (.cons (by norm_num) .nil)))))) (by decide +kernel)

theorem prime_255_564819949 : Nat.Prime 57896044618658097711785492504343953926634992332820282019728792003956564819949 :=
  pocklington _ [(74058212732561358302231226437062788676166966415465897661863160754340907, 2), (2, 2)] (.cons prime_236_754340907 (.cons (by norm_num) .nil)) (by decide +kernel)

theorem prime_1257559732178653 : Nat.Prime 1257559732178653 :=
  pocklington _ [(531581, 2), (7, 2), (3, 2), (2, 2), (2, 2)] (.cons (by norm_num) (.cons (by norm_num) (.cons (by norm_num) (.cons (by norm_num) (.cons (by norm_num) .nil))))) (by decide +kernel)

theorem prime_4434155615661930479 : Nat.Prime 4434155615661930479 :=
  pocklington _ [(1257559732178653, 2)] (.cons prime_1257559732178653 .nil) (by decide +kernel)

theorem prime_172054593956031949258510691 : Nat.Prime 172054593956031949258510691 :=
  pocklington _ [(4434155615661930479, 2)] (.cons prime_4434155615661930479 .nil) (by decide +kernel)

theorem prime_134_130476339 : Nat.Prime 19757330305831588566944191468367130476339 :=
  pocklington _ [(172054593956031949258510691, 2)] (.cons prime_172054593956031949258510691 .nil) (by decide +kernel)

theorem prime_138_826668747 : Nat.Prime 276602624281642239937218680557139826668747 :=
  pocklington _ [(19757330305831588566944191468367130476339, 2)] (.cons prime_134_130476339 .nil) (by decide +kernel)

theorem prime_253_454250989 : Nat.Prime 7237005577332262213973186563042994240857116359379907606001950938285454250989 :=
  pocklington _ [(276602624281642239937218680557139826668747, 2), (2, 2)] (.cons prime_138_826668747 (.cons (by norm_num) .nil)) (by decide +kernel)

theorem prime_13904599344773 : Nat.Prime 13904599344773 :=
  pocklington _ [(311, 2), (257, 2), (17, 2), (2, 2), (2, 2)] (.cons (by norm_num) (.cons (by norm_num) (.cons (by norm_num) (.cons (by norm_num) (.cons (by norm_num) .nil))))) (by decide +kernel)

theorem prime_131342845410725759 : Nat.Prime 131342845410725759 :=
  pocklington _ [(13904599344773, 2)] (.cons prime_13904599344773 .nil) (by decide +kernel)

theorem prime_112_654477037 : Nat.Prime 4868010057124911294296551654477037 :=
  pocklington _ [(131342845410725759, 2), (2, 2)] (.cons prime_131342845410725759 (.cons (by norm_num) .nil)) (by decide +kernel)

theorem prime_149_398393153 : Nat.Prime 592299861982871449195634528262215319398393153 :=
  pocklington _ [(4868010057124911294296551654477037, 2), (2, 3), (2, 3), (2, 3), (2, 3), (2, 3)] (.cons prime_112_654477037 (.cons (by norm_num) (.cons (by norm_num) (.cons (by norm_num) (.cons (by norm_num) (.cons (by norm_num) .nil)))))) (by decide +kernel)

theorem prime_172_826522993 : Nat.Prime 3376384040438327312767543585515740988479041826522993 :=
  pocklington _ [(592299861982871449195634528262215319398393153, 2), (7, 2), (2, 3), (2, 3), (2, 3)] (.cons prime_149_398393153 (.cons (by norm_num) (.cons (by norm_num) (.cons (by norm_num) (.cons (by norm_num) .nil))))) (by decide +kernel)

theorem prime_251_960556679 : Nat.Prime 2394768781123004469808382870696186422325158931040989687224220336205960556679 :=
  pocklington _ [(3376384040438327312767543585515740988479041826522993, 2)] (.cons prime_172_826522993 .nil) (by decide +kernel)

theorem prime_267_558252253 : Nat.Prime 181015782627525661863876044430183339290714113279526328477904366773136146558252253 :=
  pocklington _ [(2394768781123004469808382870696186422325158931040989687224220336205960556679, 2), (2, 2)] (.cons prime_251_960556679 (.cons (by norm_num) .nil)) (by decide +kernel)

theorem prime_352_569007093 : Nat.Prime 7005507114193524029414407471112866694107408372181827430432047949693881095742546770048184168812214569007093 :=
  pocklington _ [(181015782627525661863876044430183339290714113279526328477904366773136146558252253, 2), (2, 2)] (.cons prime_267_558252253 (.cons (by norm_num) .nil)) (by decide +kernel)

theorem prime_411_276839289 : Nat.Prime 5288447750321988791615322464262168318627237463714249754277190328831105466135348245791335989419337099796002495788978276839289 :=
  pocklington _ [(7005507114193524029414407471112866694107408372181827430432047949693881095742546770048184168812214569007093, 2), (2, 13), (2, 13)] (.cons prime_352_569007093 (.cons (by norm_num) (.cons (by norm_num) .nil))) (by decide +kernel)

theorem prime_37673161 : Nat.Prime 37673161 :=
  pocklington _ [(43, 2), (7, 2), (3, 2), (2, 13), (2, 13), (2, 13)] (.cons (by norm_num) (.cons (by norm_num) (.cons (by norm_num) (.cons (by norm_num) (.cons (by norm_num) (.cons (by norm_num) .nil)))))) (by decide +kernel)

theorem prime_81298681439 : Nat.Prime 81298681439 :=
  pocklington _ [(37673161, 2)] (.cons prime_37673161 .nil) (by decide +kernel)

theorem prime_6192533153 : Nat.Prime 6192533153 :=
  pocklington _ [(17, 2), (13, 2), (13, 2), (2, 3), (2, 3), (2, 3), (2, 3), (2, 3)] (.cons (by norm_num) (.cons (by norm_num) (.cons (by norm_num) (.cons (by norm_num) (.cons (by norm_num) (.cons (by norm_num) (.cons (by norm_num) (.cons (by norm_num) .nil)))))))) (by decide +kernel)

theorem prime_24818737 : Nat.Prime 24818737 :=
  pocklington _ [(131, 2), (3, 2), (2, 5), (2, 5), (2, 5), (2, 5)] (.cons (by norm_num) (.cons (by norm_num) (.cons (by norm_num) (.cons (by norm_num) (.cons (by norm_num) (.cons (by norm_num) .nil)))))) (by decide +kernel)

theorem prime_2236187 : Nat.Prime 2236187 :=
  pocklington _ [(83, 2), (19, 2)] (.cons (by norm_num) (.cons (by norm_num) .nil)) (by decide +kernel)

theorem prime_256_664518163 : Nat.Prime 115792089237314936872688561244471742058375878355761205198700409522629664518163 :=
  pocklington _ [(81298681439, 2), (6192533153, 2), (24818737, 2), (2236187, 2), (67, 2), (7, 2), (7, 2), (3, 2), (2, 2)] (.cons prime_81298681439 (.cons prime_6192533153 (.cons prime_24818737 (.cons prime_2236187 (.cons (by norm_num) (.cons (by norm_num) (.cons (by norm_num) (.cons (by norm_num) (.cons (by norm_num) .nil))))))))) (by decide +kernel)

theorem prime_11062025258654620269079 : Nat.Prime 11062025258654620269079 :=
  pocklington _ [(186793, 2), (58481, 2), (113, 2)] (.cons (by norm_num) (.cons (by norm_num) (.cons (by norm_num) .nil))) (by decide +kernel)

theorem prime_192346495197486537238745653 : Nat.Prime 192346495197486537238745653 :=
  pocklington _ [(11062025258654620269079, 2), (3, 3), (3, 3), (2, 2)] (.cons prime_11062025258654620269079 (.cons (by norm_num) (.cons (by norm_num) (.cons (by norm_num) .nil)))) (by decide +kernel)

theorem prime_130_448489349 : Nat.Prime 1224310364520512535535138388625448489349 :=
  pocklington _ [(192346495197486537238745653, 2), (2, 2)] (.cons prime_192346495197486537238745653 (.cons (by norm_num) .nil)) (by decide +kernel)

theorem prime_137_642892297 : Nat.Prime 127328277910133303695654392417046642892297 :=
  pocklington _ [(1224310364520512535535138388625448489349, 2), (2, 3), (2, 3)] (.cons prime_130_448489349 (.cons (by norm_num) (.cons (by norm_num) .nil))) (by decide +kernel)

theorem prime_256_535617037 : Nat.Prime 115792089237314936872688561244471742058035595988840268584488757999429535617037 :=
  pocklington _ [(127328277910133303695654392417046642892297, 2), (7, 2), (2, 2)] (.cons prime_137_642892297 (.cons (by norm_num) (.cons (by norm_num) .nil))) (by decide +kernel)

theorem prime_1148536850988841 : Nat.Prime 1148536850988841 :=
  pocklington _ [(47797, 2), (71, 2), (3, 2), (2, 7), (2, 7)] (.cons (by norm_num) (.cons (by norm_num) (.cons (by norm_num) (.cons (by norm_num) (.cons (by norm_num) .nil))))) (by decide +kernel)

theorem prime_14648563073947690438493231 : Nat.Prime 14648563073947690438493231 :=
  pocklington _ [(1148536850988841, 2)] (.cons prime_1148536850988841 .nil) (by decide +kernel)

theorem prime_25675427 : Nat.Prime 25675427 :=
  pocklington _ [(34603, 2)] (.cons (by norm_num) .nil) (by decide +kernel)

theorem prime_186314917095143 : Nat.Prime 186314917095143 :=
  pocklington _ [(25675427, 2)] (.cons prime_25675427 .nil) (by decide +kernel)

theorem prime_1117889502570859 : Nat.Prime 1117889502570859 :=
  pocklington _ [(186314917095143, 2)] (.cons prime_186314917095143 .nil) (by decide +kernel)

theorem prime_12839687565202986673351 : Nat.Prime 12839687565202986673351 :=
  pocklington _ [(1117889502570859, 2), (5, 2)] (.cons prime_1117889502570859 (.cons (by norm_num) .nil)) (by decide +kernel)

theorem prime_31117457390191 : Nat.Prime 31117457390191 :=
  pocklington _ [(32783, 2), (409, 2)] (.cons (by norm_num) (.cons (by norm_num) .nil)) (by decide +kernel)

theorem prime_356931425826060697097 : Nat.Prime 356931425826060697097 :=
  pocklington _ [(31117457390191, 2), (2, 3), (2, 3)] (.cons prime_31117457390191 (.cons (by norm_num) (.cons (by norm_num) .nil))) (by decide +kernel)

theorem prime_25846097 : Nat.Prime 25846097 :=
  pocklington _ [(37567, 2), (2, 3), (2, 3), (2, 3)] (.cons (by norm_num) (.cons (by norm_num) (.cons (by norm_num) (.cons (by norm_num) .nil)))) (by decide +kernel)

theorem prime_24423372744539 : Nat.Prime 24423372744539 :=
  pocklington _ [(25846097, 2)] (.cons prime_25846097 .nil) (by decide +kernel)

theorem prime_512_364566323 : Nat.Prime 13407807929942597099574024998205830437246153344875111580494527427714590099881795845981157516604994291639750834285779043186149750164319950153126044364566323 :=
  pocklington _ [(14648563073947690438493231, 2), (12839687565202986673351, 2), (356931425826060697097, 2), (24423372744539, 2)] (.cons prime_14648563073947690438493231 (.cons prime_12839687565202986673351 (.cons prime_356931425826060697097 (.cons prime_24423372744539 .nil)))) (by decide +kernel)

theorem prime_467739236953 : Nat.Prime 467739236953 :=
  pocklington _ [(739, 2), (13, 3), (3, 2), (3, 2), (2, 5), (2, 5), (2, 5)] (.cons (by norm_num) (.cons (by norm_num) (.cons (by norm_num) (.cons (by norm_num) (.cons (by norm_num) (.cons (by norm_num) (.cons (by norm_num) .nil))))))) (by decide +kernel)

theorem prime_22964125577444489 : Nat.Prime 22964125577444489 :=
  pocklington _ [(467739236953, 2), (19, 2), (2, 3), (2, 3)] (.cons prime_467739236953 (.cons (by norm_num) (.cons (by norm_num) (.cons (by norm_num) .nil)))) (by decide +kernel)

theorem prime_3381179 : Nat.Prime 3381179 :=
  pocklington _ [(3851, 2)] (.cons (by norm_num) .nil) (by decide +kernel)

theorem prime_736420786201 : Nat.Prime 736420786201 :=
  pocklington _ [(3381179, 2), (11, 2), (5, 5), (3, 3), (2, 19), (2, 19)] (.cons prime_3381179 (.cons (by norm_num) (.cons (by norm_num) (.cons (by norm_num) (.cons (by norm_num) (.cons (by norm_num) .nil)))))) (by decide +kernel)

theorem prime_8837049434413 : Nat.Prime 8837049434413 :=
  pocklington _ [(736420786201, 2), (2, 2)] (.cons prime_736420786201 (.cons (by norm_num) .nil)) (by decide +kernel)

theorem prime_198_858353981 : Nat.Prime 231309592850288117069467158203605401209447711499360858353981 :=
  pocklington _ [(22964125577444489, 2), (8837049434413, 2), (2, 2), (2, 2)] (.cons prime_22964125577444489 (.cons prime_8837049434413 (.cons (by norm_num) (.cons (by norm_num) .nil)))) (by decide +kernel)

theorem prime_322_526718043 : Nat.Prime 5531192601803395006951217567244667182954542878973237599450960517143558282789524708121615526718043 :=
  pocklington _ [(231309592850288117069467158203605401209447711499360858353981, 2), (3, 5), (3, 5)] (.cons prime_198_858353981 (.cons (by norm_num) (.cons (by norm_num) .nil))) (by decide +kernel)

theorem prime_512_300743149 : Nat.Prime 13407807929942597099574024998205830437246153344875111580494527427714590099881680053891920200409570720654742146445677939306408461754626647833262056300743149 :=
  pocklington _ [(5531192601803395006951217567244667182954542878973237599450960517143558282789524708121615526718043, 2), (2, 2)] (.cons prime_322_526718043 (.cons (by norm_num) .nil)) (by decide +kernel)

theorem prime_97859369123353 : Nat.Prime 97859369123353 :=
  pocklington _ [(271, 2), (197, 2), (67, 2), (3, 2), (2, 5), (2, 5)] (.cons (by norm_num) (.cons (by norm_num) (.cons (by norm_num) (.cons (by norm_num) (.cons (by norm_num) (.cons (by norm_num) .nil)))))) (by decide +kernel)

theorem prime_167773885276849215533569 : Nat.Prime 167773885276849215533569 :=
  pocklington _ [(97859369123353, 3), (7, 3), (3, 3), (3, 3), (2, 17), (2, 17), (2, 17), (2, 17), (2, 17), (2, 17), (2, 17), (2, 17)] (.cons prime_97859369123353 (.cons (by norm_num) (.cons (by norm_num) (.cons (by norm_num) (.cons (by norm_num) (.cons (by norm_num) (.cons (by norm_num) (.cons (by norm_num) (.cons (by norm_num) (.cons (by norm_num) (.cons (by norm_num) (.cons (by norm_num) .nil)))))))))))) (by decide +kernel)

theorem prime_1469495262398780123809 : Nat.Prime 1469495262398780123809 :=
  pocklington _ [(411743, 3), (223, 2), (7, 3), (3, 3), (2, 17), (2, 17), (2, 17), (2, 17), (2, 17)] (.cons (by norm_num) (.cons (by norm_num) (.cons (by norm_num) (.cons (by norm_num) (.cons (by norm_num) (.cons (by norm_num) (.cons (by norm_num) (.cons (by norm_num) (.cons (by norm_num) .nil))))))))) (by decide +kernel)

theorem prime_2916841 : Nat.Prime 2916841 :=
  pocklington _ [(109, 3), (3, 7), (2, 13), (2, 13), (2, 13)] (.cons (by norm_num) (.cons (by norm_num) (.cons (by norm_num) (.cons (by norm_num) (.cons (by norm_num) .nil))))) (by decide +kernel)

theorem prime_1466449 : Nat.Prime 1466449 :=
  pocklington _ [(137, 3), (2, 7), (2, 7), (2, 7), (2, 7)] (.cons (by norm_num) (.cons (by norm_num) (.cons (by norm_num) (.cons (by norm_num) (.cons (by norm_num) .nil))))) (by decide +kernel)

theorem prime_448_18365439 : Nat.Prime 726838724295606890549323807888004534353641360687318060281490199180612328166730772686396383698676545930088884461843637361053498018365439 :=
  pocklington _ [(167773885276849215533569, 2), (1469495262398780123809, 2), (2916841, 2), (1466449, 2), (196687, 2), (18287, 2), (641, 2)] (.cons prime_167773885276849215533569 (.cons prime_1469495262398780123809 (.cons prime_2916841 (.cons prime_1466449 (.cons (by norm_num) (.cons (by norm_num) (.cons (by norm_num) .nil))))))) (by decide +kernel)

theorem prime_66417393611 : Nat.Prime 66417393611 :=
  pocklington _ [(197, 2), (173, 2), (5, 3), (2, 2)] (.cons (by norm_num) (.cons (by norm_num) (.cons (by norm_num) (.cons (by norm_num) .nil)))) (by decide +kernel)

theorem prime_11290956913871 : Nat.Prime 11290956913871 :=
  pocklington _ [(66417393611, 2)] (.cons prime_66417393611 .nil) (by decide +kernel)

theorem prime_204061199 : Nat.Prime 204061199 :=
  pocklington _ [(107, 2), (23, 2), (11, 3)] (.cons (by norm_num) (.cons (by norm_num) (.cons (by norm_num) .nil))) (by decide +kernel)

theorem prime_34282281433 : Nat.Prime 34282281433 :=
  pocklington _ [(204061199, 2), (2, 5), (2, 5)] (.cons prime_204061199 (.cons (by norm_num) (.cons (by norm_num) .nil))) (by decide +kernel)

theorem prime_150_272145303 : Nat.Prime 774023187263532362759620327192479577272145303 :=
  pocklington _ [(11290956913871, 2), (34282281433, 2), (3, 2)] (.cons prime_11290956913871 (.cons prime_34282281433 (.cons (by norm_num) .nil))) (by decide +kernel)

theorem prime_160_916927241 : Nat.Prime 835945042244614951780389953367877943453916927241 :=
  pocklington _ [(774023187263532362759620327192479577272145303, 2), (3, 2), (3, 2), (2, 7), (2, 7)] (.cons prime_150_272145303 (.cons (by norm_num) (.cons (by norm_num) (.cons (by norm_num) (.cons (by norm_num) .nil))))) (by decide +kernel)

theorem prime_256_97853951 : Nat.Prime 115792089210356248762697446949407573530086143415290314195533631308867097853951 :=
  pocklington _ [(835945042244614951780389953367877943453916927241, 2), (5, 2)] (.cons prime_160_916927241 (.cons (by norm_num) .nil)) (by decide +kernel)

theorem prime_3969899 : Nat.Prime 3969899 :=
  pocklington _ [(104471, 2)] (.cons (by norm_num) .nil) (by decide +kernel)

theorem prime_1002328039319 : Nat.Prime 1002328039319 :=
  pocklington _ [(3969899, 2)] (.cons prime_3969899 .nil) (by decide +kernel)

theorem prime_9350987 : Nat.Prime 9350987 :=
  pocklington _ [(229, 2), (17, 2)] (.cons (by norm_num) (.cons (by norm_num) .nil)) (by decide +kernel)

theorem prime_187019741 : Nat.Prime 187019741 :=
  pocklington _ [(9350987, 2), (2, 2)] (.cons prime_9350987 (.cons (by norm_num) .nil)) (by decide +kernel)

theorem prime_256_512044369 : Nat.Prime 115792089210356248762697446949407573529996955224135760342422259061068512044369 :=
  pocklington _ [(1002328039319, 2), (187019741, 2), (38189, 2), (17449, 2), (3407, 2), (373, 2), (71, 2), (3, 2), (2, 7), (2, 7), (2, 7), (2, 7)] (.cons prime_1002328039319 (.cons prime_187019741 (.cons (by norm_num) (.cons (by norm_num) (.cons (by norm_num) (.cons (by norm_num) (.cons (by norm_num) (.cons (by norm_num) (.cons (by norm_num) (.cons (by norm_num) (.cons (by norm_num) (.cons (by norm_num) .nil)))))))))))) (by decide +kernel)

theorem prime_105957871 : Nat.Prime 105957871 :=
  pocklington _ [(211, 2), (19, 2), (3, 2)] (.cons (by norm_num) (.cons (by norm_num) (.cons (by norm_num) .nil))) (by decide +kernel)

theorem prime_529709925838459440593 : Nat.Prime 529709925838459440593 :=
  pocklington _ [(105957871, 2), (181, 2), (2, 3), (2, 3), (2, 3)] (.cons prime_105957871 (.cons (by norm_num) (.cons (by norm_num) (.cons (by norm_num) (.cons (by norm_num) .nil))))) (by decide +kernel)

theorem prime_513928823 : Nat.Prime 513928823 :=
  pocklington _ [(599, 2), (59, 2)] (.cons (by norm_num) (.cons (by norm_num) .nil)) (by decide +kernel)

theorem prime_53448597593 : Nat.Prime 53448597593 :=
  pocklington _ [(513928823, 2), (2, 3), (2, 3)] (.cons prime_513928823 (.cons (by norm_num) (.cons (by norm_num) .nil))) (by decide +kernel)

theorem prime_1357291859799823621 : Nat.Prime 1357291859799823621 :=
  pocklington _ [(53448597593, 2), (2, 2)] (.cons prime_53448597593 (.cons (by norm_num) .nil)) (by decide +kernel)

theorem prime_334_147526097 : Nat.Prime 19173790298027098165721053155794528970226934547887232785722672956982046098136719667167519737147526097 :=
  pocklington _ [(529709925838459440593, 2), (1357291859799823621, 2), (38557, 2), (8389, 2), (11, 2), (11, 2), (2, 3), (2, 3), (2, 3)] (.cons prime_529709925838459440593 (.cons prime_1357291859799823621 (.cons (by norm_num) (.cons (by norm_num) (.cons (by norm_num) (.cons (by norm_num) (.cons (by norm_num) (.cons (by norm_num) (.cons (by norm_num) .nil))))))))) (by decide +kernel)

theorem prime_384_973112319 : Nat.Prime 39402006196394479212279040100143613805079739270465446667948293404245721771496870329047266088258938001861606973112319 :=
  pocklington _ [(19173790298027098165721053155794528970226934547887232785722672956982046098136719667167519737147526097, 2)] (.cons prime_334_147526097 .nil) (by decide +kernel)

theorem prime_9863677 : Nat.Prime 9863677 :=
  pocklington _ [(311, 2), (3, 5), (2, 2), (2, 2)] (.cons (by norm_num) (.cons (by norm_num) (.cons (by norm_num) (.cons (by norm_num) .nil)))) (by decide +kernel)

theorem prime_37344768852931 : Nat.Prime 37344768852931 :=
  pocklington _ [(9863677, 2), (11, 2)] (.cons prime_9863677 (.cons (by norm_num) .nil)) (by decide +kernel)

theorem prime_55942463741690639 : Nat.Prime 55942463741690639 :=
  pocklington _ [(37344768852931, 2)] (.cons prime_37344768852931 .nil) (by decide +kernel)

theorem prime_8463023 : Nat.Prime 8463023 :=
  pocklington _ [(37447, 2)] (.cons (by norm_num) .nil) (by decide +kernel)

theorem prime_200_412096307 : Nat.Prime 1059392654943455286185473617842338478315215895509773412096307 :=
  pocklington _ [(55942463741690639, 2), (8463023, 2), (248431, 2), (251, 2)] (.cons prime_55942463741690639 (.cons prime_8463023 (.cons (by norm_num) (.cons (by norm_num) .nil)))) (by decide +kernel)

theorem prime_281_326390471 : Nat.Prime 3055465788140352002733946906144561090641249606160407884365391979704929268480326390471 :=
  pocklington _ [(1059392654943455286185473617842338478315215895509773412096307, 2)] (.cons prime_200_412096307 .nil) (by decide +kernel)

theorem prime_384_653942643 : Nat.Prime 39402006196394479212279040100143613805079739270465446667946905279627659399113263569398956308152294913554433653942643 :=
  pocklington _ [(3055465788140352002733946906144561090641249606160407884365391979704929268480326390471, 2), (7, 2), (3, 2)] (.cons prime_281_326390471 (.cons (by norm_num) (.cons (by norm_num) .nil))) (by decide +kernel)

theorem prime_308761441 : Nat.Prime 308761441 :=
  pocklington _ [(49481, 3), (2, 11), (2, 11), (2, 11), (2, 11)] (.cons (by norm_num) (.cons (by norm_num) (.cons (by norm_num) (.cons (by norm_num) (.cons (by norm_num) .nil))))) (by decide +kernel)

theorem prime_34110701 : Nat.Prime 34110701 :=
  pocklington _ [(19, 3), (13, 2), (5, 5), (5, 5), (2, 2)] (.cons (by norm_num) (.cons (by norm_num) (.cons (by norm_num) (.cons (by norm_num) (.cons (by norm_num) .nil))))) (by decide +kernel)

theorem prime_7623851 : Nat.Prime 7623851 :=
  pocklington _ [(37, 3), (13, 2), (5, 3), (2, 2)] (.cons (by norm_num) (.cons (by norm_num) (.cons (by norm_num) (.cons (by norm_num) .nil)))) (by decide +kernel)

theorem prime_5746001 : Nat.Prime 5746001 :=
  pocklington _ [(13, 3), (5, 5), (5, 5), (2, 3), (2, 3), (2, 3)] (.cons (by norm_num) (.cons (by norm_num) (.cons (by norm_num) (.cons (by norm_num) (.cons (by norm_num) (.cons (by norm_num) .nil)))))) (by decide +kernel)

theorem prime_521_115057151 : Nat.Prime 6864797660130609714981900799081393217269435300143305409394463459185543183397656052122559640661454554977296311391480858037121987999716643812574028291115057151 :=
  pocklington _ [(308761441, 3), (34110701, 3), (7623851, 3), (5746001, 3), (858001, 3), (409891, 3), (61681, 3), (51481, 3), (42641, 3), (8191, 3), (1613, 3), (521, 2), (157, 3), (131, 3), (53, 3), (41, 3), (31, 3), (17, 3), (11, 3), (5, 3), (5, 3), (3, 3)] (.cons prime_308761441 (.cons prime_34110701 (.cons prime_7623851 (.cons prime_5746001 (.cons (by norm_num) (.cons (by norm_num) (.cons (by norm_num) (.cons (by norm_num) (.cons (by norm_num) (.cons (by norm_num) (.cons (by norm_num) (.cons (by norm_num) (.cons (by norm_num) (.cons (by norm_num) (.cons (by norm_num) (.cons (by norm_num) (.cons (by norm_num) (.cons (by norm_num) (.cons (by norm_num) (.cons (by norm_num) (.cons (by norm_num) (.cons (by norm_num) .nil)))))))))))))))))))))) (by decide +kernel)

theorem prime_10262543633 : Nat.Prime 10262543633 :=
  pocklington _ [(702529, 2), (2, 3), (2, 3), (2, 3)] (.cons (by norm_num) (.cons (by norm_num) (.cons (by norm_num) (.cons (by norm_num) .nil)))) (by decide +kernel)

theorem prime_246301047193 : Nat.Prime 246301047193 :=
  pocklington _ [(10262543633, 2), (2, 5), (2, 5)] (.cons prime_10262543633 (.cons (by norm_num) (.cons (by norm_num) .nil))) (by decide +kernel)

theorem prime_68964293214041 : Nat.Prime 68964293214041 :=
  pocklington _ [(246301047193, 2), (2, 3), (2, 3)] (.cons prime_246301047193 (.cons (by norm_num) (.cons (by norm_num) .nil))) (by decide +kernel)

theorem prime_23236691026952546459 : Nat.Prime 23236691026952546459 :=
  pocklington _ [(68964293214041, 2)] (.cons prime_68964293214041 .nil) (by decide +kernel)

theorem prime_1219974856409 : Nat.Prime 1219974856409 :=
  pocklington _ [(3761, 2), (11, 2), (7, 2), (2, 3), (2, 3)] (.cons (by norm_num) (.cons (by norm_num) (.cons (by norm_num) (.cons (by norm_num) (.cons (by norm_num) .nil))))) (by decide +kernel)

theorem prime_189_273141493 : Nat.Prime 440208639276132997491800604758226661590679912188273141493 :=
  pocklington _ [(23236691026952546459, 2), (1219974856409, 2), (2, 2)] (.cons prime_23236691026952546459 (.cons prime_1219974856409 (.cons (by norm_num) .nil))) (by decide +kernel)

theorem prime_256_129639747 : Nat.Prime 115792089237316195423570985008687907853269984665640564039457584007913129639747 :=
  pocklington _ [(440208639276132997491800604758226661590679912188273141493, 2)] (.cons prime_189_273141493 .nil) (by decide +kernel)

theorem prime_14445953 : Nat.Prime 14445953 :=
  pocklington _ [(112859, 2), (2, 3), (2, 3), (2, 3), (2, 3), (2, 3), (2, 3)] (.cons (by norm_num) (.cons (by norm_num) (.cons (by norm_num) (.cons (by norm_num) (.cons (by norm_num) (.cons (by norm_num) (.cons (by norm_num) .nil))))))) (by decide +kernel)

theorem prime_114_835347169 : Nat.Prime 12036616631905246221947368835347169 :=
  pocklington _ [(14445953, 2), (23339, 2), (353, 2), (67, 2), (2, 3), (2, 3), (2, 3), (2, 3)] (.cons prime_14445953 (.cons (by norm_num) (.cons (by norm_num) (.cons (by norm_num) (.cons (by norm_num) (.cons (by norm_num) (.cons (by norm_num) (.cons (by norm_num) .nil)))))))) (by decide +kernel)

theorem prime_200_590800533 : Nat.Prime 836198823665986561233894956092587370334456793998873590800533 :=
  pocklington _ [(12036616631905246221947368835347169, 2), (2, 2)] (.cons prime_114_835347169 (.cons (by norm_num) .nil)) (by decide +kernel)

theorem prime_255_122995957 : Nat.Prime 28948022309329048855892746252171976963404671476872247083542990644359122995957 :=
  pocklington _ [(836198823665986561233894956092587370334456793998873590800533, 2), (2, 2)] (.cons prime_200_590800533 (.cons (by norm_num) .nil)) (by decide +kernel)

theorem prime_18675466993 : Nat.Prime 18675466993 :=
  pocklington _ [(337, 2), (7, 2), (3, 2), (3, 2), (2, 5), (2, 5), (2, 5)] (.cons (by norm_num) (.cons (by norm_num) (.cons (by norm_num) (.cons (by norm_num) (.cons (by norm_num) (.cons (by norm_num) (.cons (by norm_num) .nil))))))) (by decide +kernel)

theorem prime_6731422673890907 : Nat.Prime 6731422673890907 :=
  pocklington _ [(18675466993, 2)] (.cons prime_18675466993 .nil) (by decide +kernel)

theorem prime_4963386694354971759222277 : Nat.Prime 4963386694354971759222277 :=
  pocklington _ [(6731422673890907, 2), (2, 2)] (.cons prime_6731422673890907 (.cons (by norm_num) .nil)) (by decide +kernel)

theorem prime_156_28264201 : Nat.Prime 75231820572703253564628032427777202101028264201 :=
  pocklington _ [(4963386694354971759222277, 2), (5, 3), (3, 2), (2, 17), (2, 17)] (.cons prime_4963386694354971759222277 (.cons (by norm_num) (.cons (by norm_num) (.cons (by norm_num) (.cons (by norm_num) .nil))))) (by decide +kernel)

theorem prime_223_28475607 : Nat.Prime 11270338187361381738368406370791778308686572753805168829023028475607 :=
  pocklington _ [(75231820572703253564628032427777202101028264201, 2)] (.cons prime_156_28264201 .nil) (by decide +kernel)

theorem prime_256_950283813 : Nat.Prime 115792089237316195423570985008687907853233080465625507841270369819257950283813 :=
  pocklington _ [(11270338187361381738368406370791778308686572753805168829023028475607, 2), (29, 2), (2, 2)] (.cons prime_223_28475607 (.cons (by norm_num) (.cons (by norm_num) .nil))) (by decide +kernel)

theorem prime_13074689 : Nat.Prime 13074689 :=
  pocklington _ [(4643, 2), (2, 3), (2, 3), (2, 3), (2, 3), (2, 3), (2, 3), (2, 3)] (.cons (by norm_num) (.cons (by norm_num) (.cons (by norm_num) (.cons (by norm_num) (.cons (by norm_num) (.cons (by norm_num) (.cons (by norm_num) (.cons (by norm_num) .nil)))))))) (by decide +kernel)

theorem prime_4764311 : Nat.Prime 4764311 :=
  pocklington _ [(347, 2), (5, 2), (2, 13)] (.cons (by norm_num) (.cons (by norm_num) (.cons (by norm_num) .nil))) (by decide +kernel)

theorem prime_155_669986507 : Nat.Prime 26993582833513264323154344231914253569669986507 :=
  pocklington _ [(13074689, 2), (4764311, 2), (80429, 2), (6679, 2), (3, 2), (2, 2)] (.cons prime_13074689 (.cons prime_4764311 (.cons (by norm_num) (.cons (by norm_num) (.cons (by norm_num) (.cons (by norm_num) .nil)))))) (by decide +kernel)

theorem prime_241_803069461 : Nat.Prime 2080245395128545419440348524823604333332152003141105330979475931803069461 :=
  pocklington _ [(26993582833513264323154344231914253569669986507, 2), (3, 2), (3, 2), (3, 2), (3, 2), (2, 2)] (.cons prime_155_669986507 (.cons (by norm_num) (.cons (by norm_num) (.cons (by norm_num) (.cons (by norm_num) (.cons (by norm_num) .nil)))))) (by decide +kernel)

theorem prime_384_990306499 : Nat.Prime 39402006196394479212279040100143613805079739270465446667948293404245721771497210611414266254884915640806627990306499 :=
  pocklington _ [(2080245395128545419440348524823604333332152003141105330979475931803069461, 2)] (.cons prime_241_803069461 .nil) (by decide +kernel)

theorem prime_31278996356473 : Nat.Prime 31278996356473 :=
  pocklington _ [(2273, 2), (47, 2), (3, 3), (3, 3), (2, 5), (2, 5), (2, 5)] (.cons (by norm_num) (.cons (by norm_num) (.cons (by norm_num) (.cons (by norm_num) (.cons (by norm_num) (.cons (by norm_num) (.cons (by norm_num) .nil))))))) (by decide +kernel)

theorem prime_45988103790869860836409 : Nat.Prime 45988103790869860836409 :=
  pocklington _ [(31278996356473, 2), (2, 11), (2, 11)] (.cons prime_31278996356473 (.cons (by norm_num) (.cons (by norm_num) .nil))) (by decide +kernel)

theorem prime_144_652553861 : Nat.Prime 15594221521129363276331898006006699652553861 :=
  pocklington _ [(45988103790869860836409, 2), (2, 2)] (.cons prime_45988103790869860836409 (.cons (by norm_num) .nil)) (by decide +kernel)

theorem prime_180_128551263 : Nat.Prime 1164593977723088533751795049049170592429383508128551263 :=
  pocklington _ [(15594221521129363276331898006006699652553861, 2)] (.cons prime_144_652553861 .nil) (by decide +kernel)

theorem prime_252_912712383 : Nat.Prime 4318518785853702550001488754464202505262033584318427479479563105450912712383 :=
  pocklington _ [(1164593977723088533751795049049170592429383508128551263, 2)] (.cons prime_180_128551263 .nil) (by decide +kernel)

theorem prime_307_852186541 : Nat.Prime 173460525159883778244283279416230915737850428878899698942574142536481365478141392242852186541 :=
  pocklington _ [(4318518785853702550001488754464202505262033584318427479479563105450912712383, 2), (2, 2)] (.cons prime_252_912712383 (.cons (by norm_num) .nil)) (by decide +kernel)

theorem prime_382_204892541 : Nat.Prime 9850501549098619803069760025035903451269934817616361666986344563420484376713172155899087905006387019643728204892541 :=
  pocklington _ [(173460525159883778244283279416230915737850428878899698942574142536481365478141392242852186541, 2), (2, 2)] (.cons prime_307_852186541 (.cons (by norm_num) .nil)) (by decide +kernel)

theorem prime_1869652199 : Nat.Prime 1869652199 :=
  pocklington _ [(919, 2), (47, 2), (2, 7)] (.cons (by norm_num) (.cons (by norm_num) (.cons (by norm_num) .nil))) (by decide +kernel)

theorem prime_87103633355537453 : Nat.Prime 87103633355537453 :=
  pocklington _ [(1869652199, 2), (2, 2)] (.cons prime_1869652199 (.cons (by norm_num) .nil)) (by decide +kernel)

theorem prime_189_128045593 : Nat.Prime 458757818255720984849099049579365145055276321786128045593 :=
  pocklington _ [(87103633355537453, 2), (4289, 2), (47, 2), (41, 2), (29, 2), (13, 2), (11, 2), (2, 3), (2, 3), (2, 3)] (.cons prime_87103633355537453 (.cons (by norm_num) (.cons (by norm_num) (.cons (by norm_num) (.cons (by norm_num) (.cons (by norm_num) (.cons (by norm_num) (.cons (by norm_num) (.cons (by norm_num) (.cons (by norm_num) .nil)))))))))) (by decide +kernel)

theorem prime_363_545499857 : Nat.Prime 17205390546893004714837470011697556790056847226827536213395463004213810511540186196108585513364797974545499857 :=
  pocklington _ [(458757818255720984849099049579365145055276321786128045593, 2), (2, 5), (2, 5), (2, 5)] (.cons prime_189_128045593 (.cons (by norm_num) (.cons (by norm_num) (.cons (by norm_num) .nil)))) (by decide +kernel)

theorem prime_448_677196181 : Nat.Prime 615585629637070092939328130224555495029355339401478116159088126963191795090912358636609262432040933584241325859746091407278183677196181 :=
  pocklington _ [(17205390546893004714837470011697556790056847226827536213395463004213810511540186196108585513364797974545499857, 2), (3, 2), (2, 2)] (.cons prime_363_545499857 (.cons (by norm_num) (.cons (by norm_num) .nil))) (by decide +kernel)

theorem prime_512_377715037 : Nat.Prime 13407807929942597099574024998205846127479365820592393377723561443721764030073472452331350974860724328926419335846901075402352787783454420582463574377715037 :=
  pocklington _ [(615585629637070092939328130224555495029355339401478116159088126963191795090912358636609262432040933584241325859746091407278183677196181, 2), (3, 3), (2, 2)] (.cons prime_448_677196181 (.cons (by norm_num) (.cons (by norm_num) .nil))) (by decide +kernel)

theorem prime_128_484175977 : Nat.Prime 255515944373312847190720520512484175977 :=
  pocklington _ [(96557, 2), (41201, 2), (2657, 2), (1627, 2), (11, 2), (7, 2), (7, 2), (2, 3), (2, 3)] (.cons (by norm_num) (.cons (by norm_num) (.cons (by norm_num) (.cons (by norm_num) (.cons (by norm_num) (.cons (by norm_num) (.cons (by norm_num) (.cons (by norm_num) (.cons (by norm_num) .nil))))))))) (by decide +kernel)

theorem prime_237_955397371 : Nat.Prime 205115282021455665897114700593932402728804164701536103180137503955397371 :=
  pocklington _ [(255515944373312847190720520512484175977, 2), (29, 2)] (.cons prime_128_484175977 (.cons (by norm_num) .nil)) (by decide +kernel)

theorem prime_256_834671663 : Nat.Prime 115792089237316195423570985008687907853269984665640564039457584007908834671663 :=
  pocklington _ [(205115282021455665897114700593932402728804164701536103180137503955397371, 2)] (.cons prime_237_955397371 .nil) (by decide +kernel)

theorem prime_174723607534414371449 : Nat.Prime 174723607534414371449 :=
  pocklington _ [(120233, 2), (4051, 2), (17, 2), (2, 3), (2, 3)] (.cons (by norm_num) (.cons (by norm_num) (.cons (by norm_num) (.cons (by norm_num) (.cons (by norm_num) .nil))))) (by decide +kernel)

theorem prime_107361793816595537 : Nat.Prime 107361793816595537 :=
  pocklington _ [(85831, 2), (16699, 2), (2, 3), (2, 3), (2, 3)] (.cons (by norm_num) (.cons (by norm_num) (.cons (by norm_num) (.cons (by norm_num) (.cons (by norm_num) .nil))))) (by decide +kernel)

theorem prime_256_161494337 : Nat.Prime 115792089237316195423570985008687907852837564279074904382605163141518161494337 :=
  pocklington _ [(174723607534414371449, 2), (107361793816595537, 2), (2, 5), (2, 5), (2, 5), (2, 5), (2, 5)] (.cons prime_174723607534414371449 (.cons prime_107361793816595537 (.cons (by norm_num) (.cons (by norm_num) (.cons (by norm_num) (.cons (by norm_num) (.cons (by norm_num) .nil))))))) (by decide +kernel)

/-- modulus of anssi -/
theorem anssi_p_prime : Nat.Prime 0xF1FD178C0B3AD58F10126DE8CE42435B3961ADBCABC8CA6DE8FCF353D86E9C03 := prime_256_22393859

/-- group order of anssi -/
theorem anssi_r_prime : Nat.Prime 0xF1FD178C0B3AD58F10126DE8CE42435B53DC67E140D2BF941FFDD459C6D655E1 := prime_256_79563233

/-- modulus of bls24 -/
theorem bls24_p_prime : Nat.Prime 0x555C007803CCC5BA839AEC6E803F2E77E4C1BA825079733568E09E1F244061873220DF068A328B6F1C5CBDB6A642FFE2E82D30DAF844C1674A06152B := prime_479_979116331

/-- group order of bls24 -/
theorem bls24_r_prime : Nat.Prime 0x10010010005A01F0F05B98BB44A050D81729CC224848FC9D0CED13A6ADE7EE322DDAF1E7033FF5511901A08FFF0000001 := prime_385_416473601

/-- modulus of bls381 -/
theorem bls381_p_prime : Nat.Prime 0x1A0111EA397FE69A4B1BA7B6434BACD764774B84F38512BF6730D2A0F6B0F6241EABFFFEB153FFFFB9FEFFFFFFFFAAAB := prime_381_272559787

/-- group order of bls381 -/
theorem bls381_r_prime : Nat.Prime 0x73EDA753299D7D483339D80809A1D80553BDA402FFFE5BFEFFFFFFFF00000001 := prime_255_581184513

/-- modulus of bls383 -/
theorem bls383_p_prime : Nat.Prime 0x5565569564AB6EB5A06DADC41FEA9284A0AD462CF365A511AC31B801696124F47A8C3F298A64852BDA371D6485AAB0AB := prime_383_338464427

/-- group order of bls383 -/
theorem bls383_r_prime : Nat.Prime 0x1002001800C00B809C04401C81698B381DE05F095A120D3973B2099EBFEBC0001 := prime_257_489684993

/-- modulus of bls461 -/
theorem bls461_p_prime : Nat.Prime 0x15555545554D5A555A55D69414935FBD6F1E32D8BACCA47B14848B42A8DFFA5C1CC00F26AA91557F00400020000555554AAAAAAC0000AAAAAAAB := prime_461_740276907

/-- group order of bls461 -/
theorem bls461_r_prime : Nat.Prime 0xFFFFFF7FFFC0180017FE05FD000E801FC017FFC80001100007FEFFFEFFFFC0000000000000001 := prime_308_268303361

/-- modulus of bls48 -/
theorem bls48_p_prime : Nat.Prime 0xFD17D842FFCFC5B23729047A56C867152ACD4420536F405DA950AECD56B379B89413016A7C025A415202086876B2EC137A9870D4228402967009A661DF9EEF6E60FFCF6AC0B := prime_556_384423947

/-- group order of bls48 -/
theorem bls48_r_prime : Nat.Prime 0xC43BF73EA111AAEC637C5E9306A973C465FB0B1BF8FC95C40DEF4790BD26DFED788C26D28AD8C1FD14D1EB162029C21455409E29DA7086FFFF0000000001 := prime_496_400000001

/-- modulus of bn254 -/
theorem bn254_p_prime : Nat.Prime 0x2523648240000001BA344D80000000086121000000000013A700000000000013 := prime_254_753864723

/-- group order of bn254 -/
theorem bn254_r_prime : Nat.Prime 0x2523648240000001BA344D8000000007FF9F800000000010A10000000000000D := prime_254_570215949

/-- modulus of bn254cx -/
theorem bn254cx_p_prime : Nat.Prime 0x2400000008702A0DB0BDDF647A6366D3243FD6EE18093EE1BE6623EF5C1B55B3 := prime_254_620231603

/-- group order of bn254cx -/
theorem bn254cx_r_prime : Nat.Prime 0x2400000008702A0DB0BDDF647A6366D2C43FD6EE0CC906CEBE11C0A636EB1F6D := prime_254_88543597

/-- modulus of brainpool -/
theorem brainpool_p_prime : Nat.Prime 0xA9FB57DBA1EEA9BC3E660A909D838D726E3BF623D52620282013481D1F6E5377 := prime_256_516197751

/-- group order of brainpool -/
theorem brainpool_r_prime : Nat.Prime 0xA9FB57DBA1EEA9BC3E660A909D838D718C397AA3B561A6F7901E0E82974856A7 := prime_256_536359079

/-- modulus of c25519 -/
theorem c25519_p_prime : Nat.Prime 0x7FFFFFFFFFFFFFFFFFFFFFFFFFFFFFFFFFFFFFFFFFFFFFFFFFFFFFFFFFFFFFED := prime_255_564819949

/-- group order of c25519 -/
theorem c25519_r_prime : Nat.Prime 0x1000000000000000000000000000000014DEF9DEA2F79CD65812631A5CF5D3ED := prime_253_454250989

/-- group order of c41417 -/
theorem c41417_r_prime : Nat.Prime 0x7FFFFFFFFFFFFFFFFFFFFFFFFFFFFFFFFFFFFFFFFFFFFFFFFFFEB3CC92414CF706022B36F1C0338AD63CF181B0E71A5E106AF79 := prime_411_276839289

/-- modulus of ed25519 -/
theorem ed25519_p_prime : Nat.Prime 0x7FFFFFFFFFFFFFFFFFFFFFFFFFFFFFFFFFFFFFFFFFFFFFFFFFFFFFFFFFFFFFED := prime_255_564819949

/-- group order of ed25519 -/
theorem ed25519_r_prime : Nat.Prime 0x1000000000000000000000000000000014DEF9DEA2F79CD65812631A5CF5D3ED := prime_253_454250989

/-- modulus of fp256bn -/
theorem fp256bn_p_prime : Nat.Prime 0xFFFFFFFFFFFCF0CD46E5F25EEE71A49F0CDC65FB12980A82D3292DDBAED33013 := prime_256_664518163

/-- group order of fp256bn -/
theorem fp256bn_r_prime : Nat.Prime 0xFFFFFFFFFFFCF0CD46E5F25EEE71A49E0CDC65FB1299921AF62D536CD10B500D := prime_256_535617037

/-- modulus of fp512bn -/
theorem fp512bn_p_prime : Nat.Prime 0xFFFFFFFFFFFFFFFFFFFFFFFFFFF9EC7F01C60BA1D8CB5307C0BBE3C111B0EF455146CF1EACBE98B8E48C65DEAB236FE1916A55CE5F4C6467B4EB280922ADEF33 := prime_512_364566323

/-- group order of fp512bn -/
theorem fp512bn_r_prime : Nat.Prime 0xFFFFFFFFFFFFFFFFFFFFFFFFFFF9EC7F01C60BA1D8CB5307C0BBE3C111B0EF445146CF1EACBE98B8E48C65DEAB2679A34A10313E04F9A2B406A64A5F519A09ED := prime_512_300743149

/-- modulus of goldilocks -/
theorem goldilocks_p_prime : Nat.Prime 0xFFFFFFFFFFFFFFFFFFFFFFFFFFFFFFFFFFFFFFFFFFFFFFFFFFFFFFFEFFFFFFFFFFFFFFFFFFFFFFFFFFFFFFFFFFFFFFFFFFFFFFFFFFFFFFFF := prime_448_18365439

/-- modulus of nist256 -/
theorem nist256_p_prime : Nat.Prime 0xFFFFFFFF00000001000000000000000000000000FFFFFFFFFFFFFFFFFFFFFFFF := prime_256_97853951

/-- group order of nist256 -/
theorem nist256_r_prime : Nat.Prime 0xFFFFFFFF00000000FFFFFFFFFFFFFFFFBCE6FAADA7179E84F3B9CAC2FC632551 := prime_256_512044369

/-- modulus of nist384 -/
theorem nist384_p_prime : Nat.Prime 0xFFFFFFFFFFFFFFFFFFFFFFFFFFFFFFFFFFFFFFFFFFFFFFFFFFFFFFFFFFFFFFFEFFFFFFFF0000000000000000FFFFFFFF := prime_384_973112319

/-- group order of nist384 -/
theorem nist384_r_prime : Nat.Prime 0xFFFFFFFFFFFFFFFFFFFFFFFFFFFFFFFFFFFFFFFFFFFFFFFFC7634D81F4372DDF581A0DB248B0A77AECEC196ACCC52973 := prime_384_653942643

/-- modulus of nist521 -/
theorem nist521_p_prime : Nat.Prime 0x1FFFFFFFFFFFFFFFFFFFFFFFFFFFFFFFFFFFFFFFFFFFFFFFFFFFFFFFFFFFFFFFFFFFFFFFFFFFFFFFFFFFFFFFFFFFFFFFFFFFFFFFFFFFFFFFFFFFFFFFFFFFFFFFFFF := prime_521_115057151

/-- modulus of nums256e -/
theorem nums256e_p_prime : Nat.Prime 0xFFFFFFFFFFFFFFFFFFFFFFFFFFFFFFFFFFFFFFFFFFFFFFFFFFFFFFFFFFFFFF43 := prime_256_129639747

/-- group order of nums256e -/
theorem nums256e_r_prime : Nat.Prime 0x4000000000000000000000000000000041955AA52F59439B1A47B190EEDD4AF5 := prime_255_122995957

/-- modulus of nums256w -/
theorem nums256w_p_prime : Nat.Prime 0xFFFFFFFFFFFFFFFFFFFFFFFFFFFFFFFFFFFFFFFFFFFFFFFFFFFFFFFFFFFFFF43 := prime_256_129639747

/-- group order of nums256w -/
theorem nums256w_r_prime : Nat.Prime 0xFFFFFFFFFFFFFFFFFFFFFFFFFFFFFFFFE43C8275EA265C6020AB20294751A825 := prime_256_950283813

/-- modulus of nums384e -/
theorem nums384e_p_prime : Nat.Prime 0xFFFFFFFFFFFFFFFFFFFFFFFFFFFFFFFFFFFFFFFFFFFFFFFFFFFFFFFFFFFFFFFFFFFFFFFFFFFFFFFFFFFFFFFFFFFFFEC3 := prime_384_990306499

/-- group order of nums384e -/
theorem nums384e_r_prime : Nat.Prime 0x3FFFFFFFFFFFFFFFFFFFFFFFFFFFFFFFFFFFFFFFFFFFFFFFE2471A1CB46BE1CF61E4555AAB35C87920B9DCC4E6A3897D := prime_382_204892541

/-- modulus of nums384w -/
theorem nums384w_p_prime : Nat.Prime 0xFFFFFFFFFFFFFFFFFFFFFFFFFFFFFFFFFFFFFFFFFFFFFFFFFFFFFFFFFFFFFFFFFFFFFFFFFFFFFFFFFFFFFFFFFFFFFEC3 := prime_384_990306499

/-- group order of nums512w -/
theorem nums512w_r_prime : Nat.Prime 0xFFFFFFFFFFFFFFFFFFFFFFFFFFFFFFFFFFFFFFFFFFFFFFFFFFFFFFFFFFFFFFFF5B3CA4FB94E7831B4FC258ED97D0BDC63B568B36607CD243CE153F390433555D := prime_512_377715037

/-- modulus of secp256k1 -/
theorem secp256k1_p_prime : Nat.Prime 0xFFFFFFFFFFFFFFFFFFFFFFFFFFFFFFFFFFFFFFFFFFFFFFFFFFFFFFFEFFFFFC2F := prime_256_834671663

/-- group order of secp256k1 -/
theorem secp256k1_r_prime : Nat.Prime 0xFFFFFFFFFFFFFFFFFFFFFFFFFFFFFFFEBAAEDCE6AF48A03BBFD25E8CD0364141 := prime_256_161494337

end Verif.Rom
