{}