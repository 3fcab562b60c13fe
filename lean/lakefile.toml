name = "verif"
defaultTargets = ["Verif"]

[[lean_lib]]
name = "Verif"
